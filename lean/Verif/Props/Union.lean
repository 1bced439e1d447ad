import Verif.Lemmas.Union

/-!
# Header unions

C33: whatever happens to the headers, at most one member of a union is valid and the union knows
which.  A vector starts with every header invalid; afterwards any operation of `Phv.Op` may be
executed on it, in any order, and it may be overwritten by a copy of another such vector.
-/

namespace Bm.Phv

/-- What a configuration says: headers, unions (lists of headers), stacks of headers and of unions. -/
structure Config where
  headers : List Header
  unions : List (List Nat)
  hstacks : List (List Nat)
  unionStacks : List (List Nat)

/-- The vector before the unions are added. -/
def Config.bare (c : Config) : Phv :=
  { headers := c.headers, memb := c.headers.map fun _ => none, unions := [],
    hstacks := c.hstacks.map (⟨·, 0⟩), unionStacks := c.unionStacks.map (⟨·, 0⟩) }

/-- The vector made for a configuration.  `/repo/src/bm_sim/phv.cpp:322-356`. -/
def Config.initial (c : Config) : Phv := c.unions.foldl pushUnion c.bare

/-- A configuration as the compiler produces it: headers start invalid; a header is in at most one
union and there only once; headers of a union are not metadata, and are not elements of a stack of
headers; a union is at most once in a stack. -/
structure Config.Ok (c : Config) : Prop where
  invalid : ∀ h ∈ c.headers, h.valid = false
  disjoint : c.unions.flatten.Nodup
  inRange : ∀ h ∈ c.unions.flatten, ∃ x, c.headers[h]? = some x ∧ x.metadata = false
  apart : ∀ st ∈ c.hstacks, ∀ h ∈ st, h ∉ c.unions.flatten
  once : ∀ st ∈ c.unionStacks, st.Nodup

/-- Vectors that arise from the configuration. -/
inductive Reach (rz p416 : Bool) (c : Config) : Phv → Prop
  | start : Reach rz p416 c c.initial
  | step (p p' : Phv) (o : Op) : Reach rz p416 c p → exec rz p416 p o = some p' → Reach rz p416 c p'
  | copy (p src : Phv) : Reach rz p416 c p → Reach rz p416 c src →
      Reach rz p416 c (copyHeaders rz p src)

theorem initial_inv {c : Config} (ok : c.Ok) : Inv c.initial ∧ c.initial.headers = c.headers := by
  have b0 : Built [] c.bare := by
    refine ⟨by simp [Config.bare], ?_, ?_, by simp [Config.bare]⟩
    · intro h u i hh
      simp only [Config.bare, List.getElem?_map] at hh
      cases e : c.headers[h]? with
      | none => rw [e] at hh; cases hh
      | some x => rw [e] at hh; cases hh
    · intro h _ m hm
      simp only [Config.bare, List.getElem?_map] at hm
      cases e : c.headers[h]? with
      | none => rw [e] at hm; cases hm
      | some x => rw [e] at hm; cases hm; rfl
  obtain ⟨b, e1, e2, e3⟩ := pushUnions_built c.unions b0 ok.disjoint (by
    intro h hh
    obtain ⟨x, hx, _⟩ := ok.inRange h hh
    simpa [Config.bare] using (List.getElem?_eq_some_iff.1 hx).1) (by simp)
  rw [List.nil_append] at b
  refine ⟨⟨⟨b.toMemb, b.ofMemb, ?_, ?_⟩, ?_, ?_, ?_⟩, e1⟩
  · intro st hst h hh m hm
    have hst' : st ∈ c.hstacks.map (⟨·, 0⟩ : List Nat → Stack) := by
      have h1 : st ∈ c.bare.hstacks := e2 ▸ hst
      exact h1
    obtain ⟨el, h1, rfl⟩ := List.mem_map.1 hst'
    exact b.free h (ok.apart el h1 h hh) m hm
  · intro st hst
    have hst' : st ∈ c.unionStacks.map (⟨·, 0⟩ : List Nat → Stack) := by
      have h1 : st ∈ c.bare.unionStacks := e3 ▸ hst
      exact h1
    obtain ⟨el, h1, rfl⟩ := List.mem_map.1 hst'
    exact ok.once el h1
  · intro u x i h v h1 h2 _ h4
    have h5 := (b.sub x (List.mem_of_getElem? h1)).1
    have h6 : hv c.initial h = (c.headers[h]?).map (·.valid) := by
      rw [hv]; exact congrArg (fun l : List Header => (l[h]?).map (·.valid)) e1
    rw [h6] at h4
    cases e : c.headers[h]? with
    | none => rw [e] at h4; cases h4
    | some y =>
      rw [e] at h4
      have := ok.invalid y (List.mem_of_getElem? e)
      simp [this] at h4
      simp [← h4, h5]
  · intro u x h1 h2
    rw [(b.sub x (List.mem_of_getElem? h1)).1] at h2
    cases h2
  · intro u x i h h1 h2
    obtain ⟨y, hy, hm'⟩ := ok.inRange h ((b.sub x (List.mem_of_getElem? h1)).2 h
      (List.mem_of_getElem? h2))
    have h6 : hm c.initial h = (c.headers[h]?).map (·.metadata) := by
      rw [hm]; exact congrArg (fun l : List Header => (l[h]?).map (·.metadata)) e1
    rw [h6, hy]
    simp [hm']

theorem Reach.inv {rz p416 : Bool} {c : Config} (ok : c.Ok) {p : Phv} (r : Reach rz p416 c p) :
    Inv p ∧ SameLayout c.initial p ∧ Len c.headers.length p := by
  induction r with
  | start => exact ⟨(initial_inv ok).1, SameLayout.refl _, by rw [Len, (initial_inv ok).2]⟩
  | step p p' o _ e ih =>
    obtain ⟨h1, h2, h3⟩ := ih
    obtain ⟨g1, g2⟩ := exec_good h1 e
    exact ⟨g1, h2.trans g2, exec_len h3 e⟩
  | copy p q _ _ ih ih' =>
    obtain ⟨h1, h2, h3⟩ := ih
    obtain ⟨k1, k2, k3⟩ := ih'
    obtain ⟨g1, g2⟩ := copyHeaders_good (rz := rz) h1 k1 (h2.symm.trans k2)
    refine ⟨g1, h2.trans g2, ?_⟩
    rw [Len] at *
    simp [copyHeaders, h3, k3]

/-- **C33**: in every vector that arises, the members of every union exist, asking a union for its
valid header works, a member is valid exactly if it is the one the union names, and so no two members
are valid. -/
theorem C33_union_one_valid {rz p416 : Bool} {c : Config} (ok : c.Ok) {p : Phv}
    (r : Reach rz p416 c p) {u : Nat} {ids : List Nat} (hu : c.unions[u]? = some ids) :
    ∃ named : Option Nat, p.validHeader u = some named ∧
      (∀ h, named = some h → h ∈ ids) ∧
      (∀ h ∈ ids, ∃ y, p.headers[h]? = some y ∧ (y.isValid = true ↔ named = some h)) ∧
      (∀ (i j h k : Nat) (y z : Header), ids[i]? = some h → ids[j]? = some k → p.headers[h]? = some y →
        p.headers[k]? = some z → y.isValid = true → z.isValid = true → i = j) := by
  obtain ⟨hi, hs, hl⟩ := r.inv ok
  have hinit : ∀ (uss : List (List Nat)) (q : Phv), (uss.foldl pushUnion q).unions.map (·.members)
      = q.unions.map (·.members) ++ uss := by
    intro uss
    induction uss with
    | nil => simp
    | cons a uss ih => intro q; rw [List.foldl_cons, ih]; simp [pushUnion]
  have hmem : p.unions.map (·.members) = c.unions := by
    rw [hs.unions]
    have := hinit c.unions c.bare
    simpa [Config.initial, Config.bare] using this
  obtain ⟨x, hx, rfl⟩ : ∃ x, p.unions[u]? = some x ∧ x.members = ids := by
    rw [← hmem, List.getElem?_map] at hu
    cases e : p.unions[u]? with
    | none => rw [e] at hu; cases hu
    | some x => rw [e] at hu; exact ⟨x, rfl, by simpa using hu⟩
  have hex : ∀ h ∈ x.members, ∃ y, p.headers[h]? = some y := by
    intro h hh
    obtain ⟨y, hy, _⟩ := ok.inRange h (List.mem_flatten.2 ⟨_, List.mem_of_getElem? hu, hh⟩)
    have := (List.getElem?_eq_some_iff.1 hy).1
    exact ⟨_, List.getElem?_eq_getElem (by rw [hl]; exact this)⟩
  have key : ∀ (i h : Nat) (y : Header), x.members[i]? = some h → p.headers[h]? = some y →
      (y.isValid = true ↔ x.valid = true ∧ x.idx = i) := by
    intro i h y h1 h2
    have hf := hi.flag u x i h y.valid hx h1 (by simp) (by rw [hv, h2]; rfl)
    have hn := hi.nometa u x i h hx h1
    rw [hm, h2] at hn
    have hn' : y.metadata = false := by simpa using hn
    rw [Header.isValid, hn', Bool.false_or, hf]
    try simp
  by_cases hval : x.valid = true
  · have hidx := hi.idx u x hx hval
    have hg : x.members[x.idx]? = some x.members[x.idx] := List.getElem?_eq_getElem hidx
    refine ⟨some x.members[x.idx], ?_, ?_, ?_, ?_⟩
    · simp [validHeader, hx, hval, hg]
    · intro h hh; cases hh; exact List.getElem_mem _
    · intro h hh
      obtain ⟨y, hy⟩ := hex h hh
      refine ⟨y, hy, ?_⟩
      obtain ⟨i, hi'⟩ := List.mem_iff_getElem?.1 hh
      rw [key i h y hi' hy, Option.some.injEq]
      constructor
      · rintro ⟨_, rfl⟩
        rw [hg] at hi'
        exact Option.some.inj hi'
      · intro e
        exact ⟨hval, (hi.layout.inj hx (hg.trans (congrArg some e)) hx hi').2⟩
    · intro i j h k y z h1 h2 h3 h4 h5 h6
      have e1 := ((key i h y h1 h3).1 h5).2
      have e2 := ((key j k z h2 h4).1 h6).2
      omega
  · refine ⟨none, ?_, by simp, ?_, ?_⟩
    · simp [validHeader, hx, hval]
    · intro h hh
      obtain ⟨y, hy⟩ := hex h hh
      refine ⟨y, hy, ?_⟩
      obtain ⟨i, hi'⟩ := List.mem_iff_getElem?.1 hh
      rw [key i h y hi' hy]
      simp [hval]
    · intro i j h k y z h1 h2 h3 h4 h5 h6
      exact absurd ((key i h y h1 h3).1 h5).1 hval

/-- A header with one field of 8 bits. -/
def exH (t : Nat) : Header :=
  ((Header.mk' t none [⟨8, false, false, false, false, true⟩, Header.validInfo true] false).getD
    ⟨0, none, [], false, false, 0⟩)

/-- Two unions of two headers in a stack, and a header outside. -/
def exC : Config := ⟨[exH 0, exH 1, exH 0, exH 1, exH 0], [[0, 1], [2, 3]], [[4]], [[0, 1]]⟩

theorem exC_ok : exC.Ok := by
  refine ⟨?_, ?_, ?_, ?_, ?_⟩
  · decide +kernel
  · decide +kernel
  · intro h hh
    have : h ∈ [0, 1, 2, 3] := hh
    simp only [List.mem_cons, List.not_mem_nil, or_false] at this
    rcases this with rfl | rfl | rfl | rfl
    all_goals exact ⟨_, rfl, by decide +kernel⟩
  · decide +kernel
  · decide +kernel

/-- A run: header 0 extracted, then header 1 made valid (0 becomes invalid), the stack of unions
shifted (header 3 valid now), header 2 made valid (3 becomes invalid). -/
example : ∃ p, Reach false true exC p ∧ p.validHeader 0 = some none ∧ p.validHeader 1 = some (some 2)
    ∧ p.headers.map (·.valid) = [false, false, true, false, false] := by
  refine ⟨_, .step _ _ (.markValid 2) (.step _ _ (.unionStack 0 (.pushFront 1)) (.step _ _ (.markValid 1)
    (.step _ _ (.extract 0 [7] 0) .start rfl) rfl) rfl) rfl, ?_⟩
  decide +kernel

end Bm.Phv
