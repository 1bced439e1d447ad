import Verif.Lemmas.Phv
import Mathlib.Data.List.Nodup
import Mathlib.Data.List.Flatten

/-!
# Lemmas on header unions: number of headers, initial vectors
-/

namespace Bm.Phv

/-- Number of headers. -/
def Len (n : Nat) (p : Phv) : Prop := p.headers.length = n

theorem updHeader_len {n : Nat} {p p' : Phv} {h : Nat} {f : Header → Option Header} (hp : Len n p)
    (r : p.updHeader h f = some p') : Len n p' := by
  obtain ⟨x, y, _, _, rfl, _, _⟩ := updHeader_spec r
  simpa [Len] using hp

theorem makeHeaderInvalid_len {n : Nat} {p p' : Phv} {u i : Nat} (hp : Len n p)
    (r : p.makeHeaderInvalid u i = some p') : Len n p' := by
  simp only [makeHeaderInvalid, Option.bind_eq_bind, Option.bind_eq_some_iff] at r
  obtain ⟨_, _, r⟩ := r
  cases r
  exact hp

theorem markInvalid_len {n : Nat} {p p' : Phv} {h : Nat} (hp : Len n p)
    (r : p.markInvalid h = some p') : Len n p' := by
  simp only [markInvalid, Option.bind_eq_bind, Option.bind_eq_some_iff] at r
  obtain ⟨q, r1, m, _, r⟩ := r
  have := updHeader_len hp r1
  cases m with
  | none => cases r; exact this
  | some ui => exact makeHeaderInvalid_len this r

theorem makeHeaderValid_len {n : Nat} {p p' : Phv} {u i : Nat} (hp : Len n p)
    (r : p.makeHeaderValid u i = some p') : Len n p' := by
  simp only [makeHeaderValid, Option.bind_eq_bind, Option.bind_eq_some_iff] at r
  obtain ⟨x, _, q, r1, _, _, r⟩ := r
  cases r
  unfold invalidateOther at r1
  split at r1
  · simp only [Option.bind_eq_bind, Option.bind_eq_some_iff] at r1
    obtain ⟨_, _, r1⟩ := r1
    have := markInvalid_len hp r1
    exact this
  · cases r1; exact hp

theorem markValid_len {n : Nat} {p p' : Phv} {h : Nat} (hp : Len n p)
    (r : p.markValid h = some p') : Len n p' := by
  simp only [markValid, Option.bind_eq_bind, Option.bind_eq_some_iff] at r
  obtain ⟨q, r1, m, _, r⟩ := r
  have := updHeader_len hp r1
  cases m with
  | none => cases r; exact this
  | some ui => exact makeHeaderValid_len this r

theorem swapHeaders_len {n : Nat} {p p' : Phv} {a b : Nat} (hp : Len n p)
    (r : p.swapHeaders a b = some p') : Len n p' := by
  obtain ⟨x, y, _, _, rfl⟩ := swapHeaders_spec r
  simpa [Len] using hp

theorem swapAll_len {n : Nat} : ∀ (as bs : List Nat) {p p' : Phv}, Len n p →
    swapAll p as bs = some p' → Len n p'
  | [], _, p, p', hp, r => by simp only [swapAll] at r; cases r; exact hp
  | _ :: _, [], p, p', hp, r => by simp only [swapAll] at r; cases r; exact hp
  | a :: as, b :: bs, p, p', hp, r => by
    simp only [swapAll, Option.bind_eq_bind, Option.bind_eq_some_iff] at r
    obtain ⟨q, r1, r⟩ := r
    exact swapAll_len as bs (swapHeaders_len hp r1) r

theorem swapUnions_len {n : Nat} {p p' : Phv} {a b : Nat} (hp : Len n p)
    (r : p.swapUnions a b = some p') : Len n p' := by
  simp only [swapUnions, Option.bind_eq_bind, Option.bind_eq_some_iff] at r
  obtain ⟨x, _, y, _, r⟩ := r
  split at r
  · refine swapAll_len _ _ ?_ r
    exact hp
  · cases r

theorem assignHeader_len {n : Nat} {rz : Bool} {p p' : Phv} {d s : Nat} (hp : Len n p)
    (r : assignHeader rz p d s = some p') : Len n p' := by
  simp only [assignHeader, Option.bind_eq_bind, Option.bind_eq_some_iff] at r
  obtain ⟨x, _, r⟩ := r
  split at r
  · exact markInvalid_len hp r
  · simp only [Option.bind_eq_some_iff] at r
    obtain ⟨p1, r1, src, _, dst, _, r⟩ := r
    split at r
    · exact updHeader_len (markValid_len hp r1) r
    · cases r

theorem assignHeaders_len {n : Nat} {rz : Bool} : ∀ (ds ss : List Nat) {p p' : Phv}, Len n p →
    assignHeaders rz p ds ss = some p' → Len n p'
  | [], _, p, p', hp, r => by simp only [assignHeaders] at r; cases r; exact hp
  | _ :: _, [], p, p', hp, r => by simp only [assignHeaders] at r; cases r; exact hp
  | a :: as, b :: bs, p, p', hp, r => by
    simp only [assignHeaders, Option.bind_eq_bind, Option.bind_eq_some_iff] at r
    obtain ⟨q, r1, r⟩ := r
    exact assignHeaders_len as bs (assignHeader_len hp r1) r

theorem assignUnion_len {n : Nat} {rz : Bool} {p p' : Phv} {d s : Nat} (hp : Len n p)
    (r : assignUnion rz p d s = some p') : Len n p' := by
  simp only [assignUnion, Option.bind_eq_bind, Option.bind_eq_some_iff] at r
  obtain ⟨x, _, y, _, r⟩ := r
  split at r
  · exact assignHeaders_len _ _ hp r
  · cases r

theorem assignUnions_len {n : Nat} {rz : Bool} : ∀ (ds ss : List Nat) {p p' : Phv}, Len n p →
    assignUnions rz p ds ss = some p' → Len n p'
  | [], _, p, p', hp, r => by simp only [assignUnions] at r; cases r; exact hp
  | _ :: _, [], p, p', hp, r => by simp only [assignUnions] at r; cases r; exact hp
  | a :: as, b :: bs, p, p', hp, r => by
    simp only [assignUnions, Option.bind_eq_bind, Option.bind_eq_some_iff] at r
    obtain ⟨q, r1, r⟩ := r
    exact assignUnions_len as bs (assignUnion_len hp r1) r

theorem reset_len {n : Nat} : ∀ (l : List Nat) {p p' : Phv}, Len n p →
    l.foldlM resetOne p = some p' → Len n p'
  | [], p, p', hp, r => by cases r; exact hp
  | h :: l, p, p', hp, r => by
    simp only [List.foldlM_cons, Option.bind_eq_bind, Option.bind_eq_some_iff] at r
    obtain ⟨q, r1, r⟩ := r
    refine reset_len l ?_ r
    simp only [resetOne, Option.bind_eq_bind, Option.bind_eq_some_iff] at r1
    obtain ⟨q1, r1, x, _, r2⟩ := r1
    have := markInvalid_len hp r1
    split at r2
    · cases r2; exact this
    · exact updHeader_len this r2

theorem exec_len {n : Nat} {rz p416 : Bool} {p p' : Phv} {o : Op} (hp : Len n p)
    (r : exec rz p416 p o = some p') : Len n p' := by
  cases o with
  | markValid h => exact markValid_len hp r
  | markInvalid h => exact markInvalid_len hp r
  | extract h data k =>
    simp only [exec, extract, Option.bind_eq_bind, Option.bind_eq_some_iff] at r
    obtain ⟨p1, r1, r2⟩ := r
    exact markValid_len (updHeader_len hp r1) r2
  | assignHeader d s => exact assignHeader_len hp r
  | assignUnion d s => exact assignUnion_len hp r
  | assignHeaderStack d s =>
    simp only [exec, assignHeaderStack, Option.bind_eq_bind, Option.bind_eq_some_iff] at r
    obtain ⟨x, hx, y, _, r⟩ := r
    split at r
    · refine assignHeaders_len _ _ ?_ r; exact hp
    · cases r
  | assignUnionStack d s =>
    simp only [exec, assignUnionStack, Option.bind_eq_bind, Option.bind_eq_some_iff] at r
    obtain ⟨x, hx, y, _, r⟩ := r
    split at r
    · refine assignUnions_len _ _ ?_ r; exact hp
    · cases r
  | headerStack k o =>
    simp only [exec, Option.bind_eq_bind, Option.bind_eq_some_iff] at r
    obtain ⟨st, hst, ⟨m, st', q⟩, r1, r⟩ := r
    cases r
    have K : Keeps headerOps (Len n) st.elements :=
      ⟨fun s s' _ _ a b hs _ _ _ r => swapHeaders_len hs r, fun s s' a hs _ r => markValid_len hs r,
        fun s s' a hs _ r => markInvalid_len hs r⟩
    exact (stackOp_keeps K hp r1).1
  | unionStack k o =>
    simp only [exec, Option.bind_eq_bind, Option.bind_eq_some_iff] at r
    obtain ⟨st, hst, ⟨m, st', q⟩, r1, r⟩ := r
    cases r
    have K : Keeps unionOps (Len n) st.elements :=
      ⟨fun s s' _ _ a b hs _ _ _ r => swapUnions_len hs r, fun s s' a hs _ r => by cases r; exact hs,
        fun s s' a hs _ r => by cases r; exact hs⟩
    exact (stackOp_keeps K hp r1).1
  | reset => exact reset_len _ hp r
  | resetHeaderStacks => cases r; exact hp
  | resetHeaders all =>
    simp only [exec, resetHeaders, Option.bind_eq_bind, Option.bind_eq_some_iff] at r
    obtain ⟨hs, e, r⟩ := r
    cases r
    exact (mapM_length e).trans hp

/-! ## Building a vector -/

theorem foldl_memb (u : Nat) : ∀ (ids : List Nat) (k : Nat) (m : List (Option (Nat × Nat))), ids.Nodup →
    (∀ h ∈ ids, h < m.length) →
    (∀ (i h : Nat), ids[i]? = some h →
      ((ids.zipIdx k).foldl (fun m x => m.set x.1 (some (u, x.2))) m)[h]? = some (some (u, k + i))) ∧
    (∀ h, h ∉ ids → ((ids.zipIdx k).foldl (fun m x => m.set x.1 (some (u, x.2))) m)[h]? = m[h]?) ∧
    ((ids.zipIdx k).foldl (fun m x => m.set x.1 (some (u, x.2))) m).length = m.length := by
  intro ids
  induction ids with
  | nil => intro k m _ _; simp
  | cons a ids ih =>
    intro k m hn hlt
    rw [List.nodup_cons] at hn
    simp only [List.zipIdx_cons, List.foldl_cons]
    obtain ⟨h1, h2, h3⟩ := ih (k + 1) (m.set a (some (u, k))) hn.2
      (fun h hh => by rw [List.length_set]; exact hlt h (by simp [hh]))
    refine ⟨?_, ?_, by rw [h3, List.length_set]⟩
    · intro i h hi
      cases i with
      | zero =>
        simp only [List.getElem?_cons_zero, Option.some.injEq] at hi
        subst hi
        rw [h2 a hn.1, List.getElem?_set_self (hlt a (by simp))]
        rfl
      | succ i =>
        simp only [List.getElem?_cons_succ] at hi
        rw [h1 i h hi]
        congr 3
        omega
    · intro h hh
      simp only [List.mem_cons, not_or] at hh
      rw [h2 h hh.2, List.getElem?_set_ne (Ne.symm hh.1)]

/-- What building the vector keeps: `S` are the headers that are members already. -/
structure Built (S : List Nat) (p : Phv) : Prop where
  toMemb : ∀ (u : Nat) (x : HUnion) (i h : Nat), p.unions[u]? = some x → x.members[i]? = some h →
    p.memb[h]? = some (some (u, i))
  ofMemb : ∀ h u i : Nat, p.memb[h]? = some (some (u, i)) →
    ∃ x : HUnion, p.unions[u]? = some x ∧ x.members[i]? = some h
  free : ∀ h, h ∉ S → ∀ m, p.memb[h]? = some m → m = none
  sub : ∀ x ∈ p.unions, x.valid = false ∧ ∀ h ∈ x.members, h ∈ S

theorem pushUnion_built {S : List Nat} {p : Phv} {ids : List Nat} (b : Built S p) (hn : ids.Nodup)
    (hlt : ∀ h ∈ ids, h < p.memb.length) (hd : ∀ h ∈ ids, h ∉ S) :
    Built (S ++ ids) (p.pushUnion ids) ∧ (p.pushUnion ids).memb.length = p.memb.length ∧
      (p.pushUnion ids).headers = p.headers ∧ (p.pushUnion ids).hstacks = p.hstacks ∧
      (p.pushUnion ids).unionStacks = p.unionStacks := by
  obtain ⟨f1, f2, f3⟩ := foldl_memb p.unions.length ids 0 p.memb hn hlt
  refine ⟨⟨?_, ?_, ?_, ?_⟩, f3, rfl, rfl, rfl⟩
  · intro u x i h h1 h2
    simp only [pushUnion] at h1 ⊢
    by_cases hu : u < p.unions.length
    · rw [List.getElem?_append_left hu] at h1
      have hm := List.mem_of_getElem? h1
      have : h ∈ S := (b.sub x hm).2 h (List.mem_of_getElem? h2)
      rw [f2 h (fun c => hd h c this)]
      exact b.toMemb u x i h h1 h2
    · rw [List.getElem?_append_right (by omega)] at h1
      have hu' : u = p.unions.length := by
        have := (List.getElem?_eq_some_iff.1 h1).1
        simp at this
        omega
      subst hu'
      simp at h1
      subst h1
      have := f1 i h h2
      simpa using this
  · intro h u i hh
    simp only [pushUnion] at hh ⊢
    by_cases hm : h ∈ ids
    · obtain ⟨j, hj⟩ := List.mem_iff_getElem?.1 hm
      rw [f1 j h hj] at hh
      simp only [Nat.zero_add, Option.some.injEq, Prod.mk.injEq] at hh
      obtain ⟨rfl, rfl⟩ := hh
      exact ⟨{ members := ids }, by simp, hj⟩
    · rw [f2 h hm] at hh
      obtain ⟨x, h1, h2⟩ := b.ofMemb h u i hh
      exact ⟨x, by rw [List.getElem?_append_left (List.getElem?_eq_some_iff.1 h1).1]; exact h1, h2⟩
  · intro h hh m hm
    simp only [List.mem_append, not_or] at hh
    simp only [pushUnion] at hm
    rw [f2 h hh.2] at hm
    exact b.free h hh.1 m hm
  · intro x hx
    simp only [pushUnion, List.mem_append, List.mem_singleton] at hx
    rcases hx with hx | rfl
    · exact ⟨(b.sub x hx).1, fun h hh => List.mem_append_left _ ((b.sub x hx).2 h hh)⟩
    · exact ⟨rfl, fun h hh => List.mem_append_right _ hh⟩

theorem pushUnions_built : ∀ (uss : List (List Nat)) {S : List Nat} {p : Phv}, Built S p →
    uss.flatten.Nodup → (∀ h ∈ uss.flatten, h < p.memb.length) → (∀ h ∈ uss.flatten, h ∉ S) →
    Built (S ++ uss.flatten) (uss.foldl pushUnion p) ∧ (uss.foldl pushUnion p).headers = p.headers ∧
      (uss.foldl pushUnion p).hstacks = p.hstacks ∧
      (uss.foldl pushUnion p).unionStacks = p.unionStacks := by
  intro uss
  induction uss with
  | nil => intro S p b _ _ _; exact ⟨by simpa using b, rfl, rfl, rfl⟩
  | cons ids uss ih =>
    intro S p b hn hlt hd
    simp only [List.flatten_cons, List.nodup_append] at hn
    obtain ⟨n1, n2, n3⟩ := hn
    simp only [List.flatten_cons, List.mem_append] at hlt hd
    obtain ⟨b1, l1, e1, e2, e3⟩ := pushUnion_built b n1 (fun h hh => hlt h (Or.inl hh))
      (fun h hh => hd h (Or.inl hh))
    obtain ⟨c1, c2, c3, c4⟩ := ih b1 n2 (fun h hh => by rw [l1]; exact hlt h (Or.inr hh)) (by
      intro h hh hm
      rcases List.mem_append.1 hm with h1 | h1
      · exact hd h (Or.inr hh) h1
      · exact n3 h h1 h hh rfl)
    simp only [List.foldl_cons, List.flatten_cons]
    rw [← List.append_assoc]
    exact ⟨c1, c2.trans e1, c3.trans e2, c4.trans e3⟩

end Bm.Phv
