import Verif.Lemmas.SaveCursor

/-! Restoring an action profile and its tables. -/

set_option linter.unusedSectionVars false

namespace Bm.Save
open Spec
variable {D : Type}

/-- The entry can be saved and read back to a new entry. -/
def EntIO.Good {A : Type} (io : EntIO D A) (a : A) : Prop :=
  ∃ ts, io.save a = some ts ∧ ∀ rest, io.load io.new (ts ++ rest) = some (a, rest)

theorem readNums_put (l : List Nat) (rest : List (Tok D)) : readNums l.length (putNums l ++ rest) = some (l, rest) := by
  induction l with
  | nil => rfl
  | cons x l ih =>
    show readNums (l.length + 1) (.num (x : Nat) :: (putNums l ++ rest)) = _
    simp only [readNums, readNum, Option.bind_eq_bind, Option.bind_some, ih, Option.pure_def, Int.toNat_natCast]

theorem loadCounts_save (rc : RefCounts) (rest : List (Tok D)) : loadCounts (saveCounts rc ++ rest) = some (rc, rest) := by
  simp only [loadCounts, saveCounts, List.append_assoc, List.cons_append, List.nil_append, readNum, Option.bind_eq_bind,
    Option.bind_some, Int.toNat_natCast, readNums_put, Option.pure_def]

theorem ras_add_top : ∀ (l : List Nat) (x : Nat), (∀ y ∈ l, y < x) → (Ras.add l x).2 = l ++ [x]
  | [], x, _ => rfl
  | y :: l, x, h => by
    have hy := h y (by simp)
    rw [Ras.add, if_neg (by omega), if_neg (by omega)]
    simp only [ras_add_top l x (fun z hz => h z (by simp [hz])), List.cons_append]

theorem loadGroup_put : ∀ (l g : List Nat) (rest : List (Tok D)), (g ++ l).Pairwise (· < ·) →
    loadGroup l.length g (putNums l ++ rest) = some (g ++ l, rest)
  | [], g, rest, _ => by simp [loadGroup, putNums]
  | x :: l, g, rest, h => by
    show loadGroup (l.length + 1) g (.num (x : Nat) :: (putNums l ++ rest)) = _
    simp only [loadGroup, readNum, Option.bind_eq_bind, Option.bind_some, Int.toNat_natCast]
    rw [ras_add_top g x (fun y hy => (List.pairwise_append.1 h).2.2 y hy x (by simp)),
      loadGroup_put l (g ++ [x]) rest (by simpa using h)]
    simp

section prof
variable {A : Type}

/-- The members `l` have been restored. -/
structure PartM (io : EntIO D A) (p0 p : AProf A) (n : Nat) (l : List Nat) (q : AProf A) : Prop where
  same : q = { p0 with entries := q.entries, mbrH := q.mbrH }
  bits : q.mbrH.handles.Rep l.toFinset
  cur : q.mbrH.firstUnset = 0
  top : ∀ x, (∀ y ∈ l, y < x) → q.mbrH.handles.numBits ≤ x
  ent : ∀ j, q.entries[j]? = if j ∈ l then p.entries[j]? else if j < n then some io.new else none

variable {io : EntIO D A} {p0 p q : AProf A} {n : Nat} {l : List Nat}

theorem PartM.step (h : PartM io p0 p n l q) (hn : n = p.entries.length) (x : Nat) (hx : ∀ y ∈ l, y < x) (hlt : x < n)
    (hio : ∀ a, p.entries[x]? = some a → io.Good a) :
    ∃ ts q', saveMember io p x = some ts ∧ (∀ rest, loadMember io q (ts ++ rest) = some (q', rest)) ∧
      PartM io p0 p n (l ++ [x]) q' := by
  have hnl : x ∉ l := fun hm => by have := hx x hm; omega
  obtain ⟨a, ha⟩ : ∃ a, p.entries[x]? = some a := ⟨_, List.getElem?_eq_getElem (by omega)⟩
  obtain ⟨ts, e1, e2⟩ := hio a ha
  have hnew : q.entries[x]? = some io.new := by rw [h.ent, if_neg hnl, if_pos hlt]
  obtain ⟨m', e3, hb, hcur, hN⟩ := setHandle_top h.bits h.cur x (h.top x hx)
  refine ⟨.num (x : Nat) :: ts, { q with mbrH := m', entries := q.entries.set x a }, ?_, ?_, ?_⟩
  · simp only [saveMember, ha, e1, Option.bind_eq_bind, Option.bind_some, Option.pure_def]
  · intro rest
    simp only [List.cons_append, loadMember, readNum, Option.bind_eq_bind, Option.bind_some, Int.toNat_natCast, e3,
      Bool.not_true, Bool.false_eq_true, if_false, hnew, e2, Option.pure_def]
  · refine ⟨?_, ?_, hcur, ?_, ?_⟩
    · simp only; rw [h.same]
    · have : (l ++ [x]).toFinset = insert x l.toFinset := by ext y; simp [or_comm]
      rw [this]; exact hb
    · intro y hy
      have := hy x (by simp)
      show m'.handles.numBits ≤ y
      omega
    · intro j
      simp only [List.getElem?_set]
      by_cases hj : x = j
      · subst hj
        have : x < q.entries.length := by
          have := List.getElem?_eq_some_iff.1 hnew
          exact this.1
        simp [this, ha]
      · rw [if_neg hj, h.ent]
        have : j ∈ l ++ [x] ↔ j ∈ l := by simp [Ne.symm hj]
        simp only [this]

theorem PartM.loop (hn : n = p.entries.length) : ∀ (xs l : List Nat) (q : AProf A), PartM io p0 p n l q →
    (l ++ xs).Pairwise (· < ·) → (∀ x ∈ xs, x < n ∧ ∀ a, p.entries[x]? = some a → io.Good a) →
    ∃ es q', xs.mapM (saveMember io p) = some es ∧
      (∀ rest, loadMembers io xs.length q (es.flatten ++ rest) = some (q', rest)) ∧ PartM io p0 p n (l ++ xs) q'
  | [], l, q, h, _, _ => ⟨[], q, rfl, fun _ => rfl, by simpa using h⟩
  | x :: xs, l, q, h, hl, hE => by
    obtain ⟨ts, q2, e1, e2, h2⟩ := h.step hn x (fun y hy => (List.pairwise_append.1 hl).2.2 y hy x (by simp))
      (hE x (by simp)).1 (hE x (by simp)).2
    obtain ⟨es, q3, e3, e4, h3⟩ := PartM.loop hn xs (l ++ [x]) q2 h2 (by simpa using hl) (fun y hy => hE y (by simp [hy]))
    refine ⟨ts :: es, q3, ?_, ?_, by simpa using h3⟩
    · rw [List.mapM_cons, e1, e3]; rfl
    · intro rest
      simp only [List.length_cons, List.flatten_cons, List.append_assoc, loadMembers, e2, e4, Option.bind_eq_bind,
        Option.bind_some]

/-- The groups below `k` have been restored. -/
structure PartG (p0 p : AProf A) (k : Nat) (q : AProf A) : Prop where
  same : q = { p0 with groups := q.groups, grpH := q.grpH }
  bits : q.grpH.handles.Rep (Finset.range k)
  cur : q.grpH.firstUnset = 0
  top : q.grpH.handles.numBits ≤ k
  len : q.groups.length = k
  grp : ∀ j < k, q.groups[j]? = p.groups[j]?

variable {k : Nat}

theorem PartG.step (h : PartG p0 p k q) (hs : ∀ l ∈ p.groups, l.Pairwise (· < ·)) (hk : k < p.groups.length) :
    ∃ (ts : List (Tok D)) (q' : AProf A), saveGroup p k = some ts ∧ (∀ rest, loadOneGroup q (ts ++ rest) = some (q', rest)) ∧
      PartG p0 p (k + 1) q' := by
  obtain ⟨g, hg⟩ : ∃ g, p.groups[k]? = some g := ⟨_, List.getElem?_eq_getElem hk⟩
  obtain ⟨m', e3, hb, hcur, hN⟩ := setHandle_top h.bits h.cur k h.top
  have hsg := hs g (List.mem_of_getElem? hg)
  have hi : AProf.insertGroup q.groups k = some (q.groups ++ [[]]) := by
    rw [AProf.insertGroup, if_pos (by rw [h.len]), if_pos h.len.symm]
  have h2 : (q.groups ++ [[]])[k]? = some ([] : List Nat) := by
    rw [List.getElem?_append_right (by rw [h.len])]; simp [h.len]
  refine ⟨[.num (k : Nat), .num g.length] ++ putNums g, { q with grpH := m', groups := (q.groups ++ [[]]).set k g }, ?_, ?_, ?_⟩
  · simp only [saveGroup, hg, Option.bind_eq_bind, Option.bind_some, Option.pure_def]
  · intro rest
    simp only [List.append_assoc, List.cons_append, List.nil_append, loadOneGroup, readNum, Option.bind_eq_bind,
      Option.bind_some, Int.toNat_natCast, e3, Bool.not_true, Bool.false_eq_true, if_false, hi, h2,
      loadGroup_put g [] rest hsg, Option.pure_def]
  · refine ⟨?_, ?_, hcur, ?_, ?_, ?_⟩
    · simp only; rw [h.same]
    · rw [Finset.range_add_one]; exact hb
    · show m'.handles.numBits ≤ k + 1; omega
    · simp [h.len]
    · intro j hj
      simp only [List.getElem?_set]
      by_cases hjk : k = j
      · subst hjk
        simp [h.len, hg]
      · rw [if_neg hjk, List.getElem?_append_left (by rw [h.len]; omega), h.grp j (by omega)]

theorem PartG.loop (hs : ∀ l ∈ p.groups, l.Pairwise (· < ·)) : ∀ (n k : Nat) (q : AProf A), PartG p0 p k q →
    k + n ≤ p.groups.length →
    ∃ (es : List (List (Tok D))) (q' : AProf A), (List.range' k n).mapM (saveGroup p) = some es ∧
      (∀ rest, loadGroups n q (es.flatten ++ rest) = some (q', rest)) ∧ PartG p0 p (k + n) q'
  | 0, k, q, h, _ => ⟨[], q, rfl, fun _ => rfl, by simpa using h⟩
  | n + 1, k, q, h, hl => by
    obtain ⟨ts, q2, e1, e2, h2⟩ := h.step (D := D) hs (by omega)
    obtain ⟨es, q3, e3, e4, h3⟩ := PartG.loop hs n (k + 1) q2 h2 (by omega)
    refine ⟨ts :: es, q3, ?_, ?_, by rw [Nat.add_right_comm] at h3; exact h3⟩
    · rw [List.range'_succ, List.mapM_cons, e1, e3]; rfl
    · intro rest
      simp only [List.flatten_cons, List.append_assoc, loadGroups, e2, e4, Option.bind_eq_bind, Option.bind_some]

/-- Groups that are not numbered from 0 without gaps: the restore fails. -/
theorem PartG.hole (hs : ∀ l ∈ p.groups, l.Pairwise (· < ·)) : ∀ (xs : List Nat) (k : Nat) (q : AProf A), PartG p0 p k q →
    (∀ x ∈ xs, k ≤ x) → xs.Pairwise (· < ·) → (∀ x ∈ xs, x < p.groups.length) → xs ≠ List.range' k xs.length →
    ∃ es : List (List (Tok D)), xs.mapM (saveGroup p) = some es ∧
      ∀ rest, loadGroups xs.length q (es.flatten ++ rest) = none
  | [], k, q, h, _, _, _, hne => absurd rfl hne
  | x :: xs, k, q, h, hx, hp, hlt, hne => by
    have hall : ∀ xs : List Nat, (∀ x ∈ xs, x < p.groups.length) → ∃ es : List (List (Tok D)), xs.mapM (saveGroup p) = some es := by
      intro xs
      induction xs with
      | nil => exact fun _ => ⟨[], rfl⟩
      | cons y ys ih =>
        intro hy
        obtain ⟨es, e⟩ := ih (fun z hz => hy z (by simp [hz]))
        obtain ⟨g, hg⟩ : ∃ g, p.groups[y]? = some g := ⟨_, List.getElem?_eq_getElem (hy y (by simp))⟩
        exact ⟨([.num (y : Nat), .num g.length] ++ putNums g) :: es, by
          rw [List.mapM_cons, e]; simp [saveGroup, hg]⟩
    by_cases hxk : x = k
    · subst hxk
      obtain ⟨ts, q2, e1, e2, h2⟩ := h.step (D := D) hs (hlt x (by simp))
      obtain ⟨es, e3, e4⟩ := PartG.hole hs xs (x + 1) q2 h2 (fun y hy => (List.pairwise_cons.1 hp).1 y hy)
        (List.pairwise_cons.1 hp).2 (fun y hy => hlt y (by simp [hy])) (by
          intro he; apply hne; rw [List.length_cons, List.range'_succ, ← he])
      refine ⟨ts :: es, by rw [List.mapM_cons, e1, e3]; rfl, ?_⟩
      intro rest
      simp only [List.length_cons, List.flatten_cons, List.append_assoc, loadGroups, e2, e4, Option.bind_eq_bind,
        Option.bind_some]
    · have hgt : k < x := by have := hx x (by simp); omega
      obtain ⟨es, e⟩ := hall (x :: xs) hlt
      refine ⟨es, e, ?_⟩
      obtain ⟨g, hg⟩ : ∃ g, p.groups[x]? = some g := ⟨_, List.getElem?_eq_getElem (hlt x (by simp))⟩
      rw [List.mapM_cons] at e
      simp only [saveGroup, hg, Option.bind_eq_bind, Option.bind_some, Option.pure_def] at e
      obtain ⟨es', -, e⟩ := Option.bind_eq_some_iff.1 e
      simp only [Option.some.injEq] at e
      subst e
      intro rest
      obtain ⟨m', e3, -⟩ := setHandle_top h.bits h.cur x (by have := h.top; omega)
      have hi : AProf.insertGroup q.groups x = none := by rw [AProf.insertGroup, if_neg (by rw [h.len]; omega)]
      simp only [List.length_cons, List.flatten_cons, List.append_assoc, List.cons_append, loadGroups, loadOneGroup, readNum,
        Option.bind_eq_bind, Option.bind_some, Int.toNat_natCast, e3, Bool.not_true, Bool.false_eq_true, if_false, hi,
        Option.bind_none]

/-- What is needed of a profile to save it. -/
structure Savable (io : EntIO D A) (p : AProf A) (Sm Sg : Finset Nat) : Prop where
  hm : p.mbrH.Rep Sm
  nm : p.numMembers = Sm.card
  mlt : ∀ m ∈ Sm, m < p.entries.length
  good : ∀ m ∈ Sm, ∀ a, p.entries[m]? = some a → io.Good a
  hg : p.grpH.Rep Sg
  ng : p.numGroups = Sg.card
  glt : ∀ g ∈ Sg, g < p.groups.length
  sorted : ∀ l ∈ p.groups, l.Pairwise (· < ·)

/-- The restored profile, but for the cursors. -/
structure RestoredP (p : AProf A) (Sm Sg : Finset Nat) (q : AProf A) : Prop where
  sel : q.withSelection = true
  hm : q.mbrH.Rep Sm
  nm : q.numMembers = p.numMembers
  len : q.entries.length = p.entries.length
  ent : ∀ m ∈ Sm, q.entries[m]? = p.entries[m]?
  rc : q.rc = p.rc
  hg : q.grpH.Rep Sg
  ng : q.numGroups = p.numGroups
  glen : q.groups.length = Sg.card
  grp : ∀ g ∈ Sg, q.groups[g]? = p.groups[g]?

variable {Sm Sg : Finset Nat}

theorem length_card {l : List Nat} {S : Finset Nat} (hp : l.Pairwise (· < ·)) (h : ∀ x, x ∈ l ↔ x ∈ S) : l.length = S.card := by
  have : l.toFinset = S := by ext x; simp [h]
  rw [← this, List.toFinset_card_of_nodup (hp.imp (fun h => Nat.ne_of_lt h))]

theorem sorted_eq {l l' : List Nat} (hp : l.Pairwise (· < ·)) (hp' : l'.Pairwise (· < ·)) (h : ∀ x, x ∈ l ↔ x ∈ l') : l = l' :=
  List.Perm.eq_of_pairwise (fun a b _ _ h1 h2 => by omega) hp hp' ((List.perm_ext_iff_of_nodup
    (hp.imp (fun h => Nat.ne_of_lt h)) (hp'.imp (fun h => Nat.ne_of_lt h))).2 h)

/-- The part before the groups, and the groups as they are iterated. -/
theorem restore_members (h : Savable io p Sm Sg) :
    ∃ (pre : List (Tok D)) (gl : List Nat) (q : AProf A), gl.Pairwise (· < ·) ∧ (∀ g, g ∈ gl ↔ g ∈ Sg) ∧
      (∀ es : List (List (Tok D)), gl.mapM (saveGroup p) = some es → saveProf io p = some (pre ++ es.flatten)) ∧
      (∀ ts, loadProf io {} (pre ++ ts) = loadGroups gl.length q ts) ∧
      q.withSelection = true ∧ q.mbrH.handles.Rep Sm ∧ q.mbrH.firstUnset = 0 ∧ q.numMembers = p.numMembers ∧
      q.entries.length = p.entries.length ∧ (∀ m ∈ Sm, q.entries[m]? = p.entries[m]?) ∧ q.rc = p.rc ∧
      q.numGroups = p.numGroups ∧ q.grpH = {} ∧ q.groups = [] := by
  obtain ⟨ml, em, pm, hml⟩ := h.hm.iterate
  obtain ⟨gl, eg, pg, hgl⟩ := h.hg.iterate
  have hmlen := length_card pm hml
  have hglen := length_card pg hgl
  let p0 : AProf A := { entries := resizeEntries io [] p.entries.length, numMembers := p.numMembers }
  have hres : resizeEntries io ([] : List A) p.entries.length = List.replicate p.entries.length io.new := by simp [resizeEntries]
  have h0 : PartM io p0 p p.entries.length [] p0 :=
    ⟨rfl, Bitset.Rep.empty, rfl, fun x _ => Nat.zero_le _, by
      intro j
      simp only [p0, hres, List.getElem?_replicate, List.not_mem_nil, if_false]⟩
  obtain ⟨es, q, e1, e2, h1⟩ := PartM.loop (io := io) rfl ml [] p0 h0 (by simpa using pm)
    (fun x hx => ⟨h.mlt x ((hml x).1 hx), h.good x ((hml x).1 hx)⟩)
  rw [List.nil_append] at h1
  have hb : q.mbrH.handles.Rep Sm := by
    have : ml.toFinset = Sm := by ext x; simp [hml]
    rw [← this]; exact h1.bits
  refine ⟨[.num p.entries.length, .num p.numMembers] ++ es.flatten ++ saveCounts p.rc ++ [.num p.numGroups], gl,
    { q with rc := p.rc, numGroups := p.numGroups }, pg, hgl, ?_, ?_, ?_, hb, h1.cur, ?_, ?_, ?_, rfl, rfl, ?_, ?_⟩
  · intro gs hgs
    simp only [saveProf, em, e1, eg, hgs, Option.bind_eq_bind, Option.bind_some, Option.pure_def]
  · intro ts
    simp only [loadProf, List.append_assoc, List.cons_append, List.nil_append, readNum, Option.bind_eq_bind, Option.bind_some,
      Int.toNat_natCast]
    have := e2 (saveCounts p.rc ++ (.num p.numGroups :: ts))
    rw [hmlen, ← h.nm] at this
    show ((loadMembers io p.numMembers p0 _).bind fun x => _) = _
    rw [this]
    simp only [Option.bind_some, loadCounts_save, readNum, Int.toNat_natCast, h.ng, hglen]
  · show q.withSelection = true; rw [h1.same]
  · show q.numMembers = _; rw [h1.same]
  · show q.entries.length = _
    refine Nat.le_antisymm ?_ ?_
    · by_contra hlt
      have h2 := h1.ent p.entries.length
      rw [List.getElem?_eq_getElem (by omega)] at h2
      by_cases hin : p.entries.length ∈ ml
      · have := h.mlt _ ((hml _).1 hin); omega
      · simp [hin] at h2
    · by_contra hlt
      have h2 := h1.ent q.entries.length
      rw [List.getElem?_eq_none (Nat.le_refl _)] at h2
      by_cases hin : q.entries.length ∈ ml
      · rw [if_pos hin, List.getElem?_eq_getElem (by omega)] at h2; cases h2
      · rw [if_neg hin, if_pos (by omega)] at h2; cases h2
  · intro m hm
    show q.entries[m]? = _
    rw [h1.ent, if_pos ((hml m).2 hm)]
  · show q.grpH = _; rw [h1.same]
  · show q.groups = _; rw [h1.same]

/-- The groups are numbered from 0 without gaps. -/
def NoGap (Sg : Finset Nat) : Prop := ∀ g ∈ Sg, ∀ j < g, j ∈ Sg

theorem noGap_range (h : NoGap Sg) : ∀ x, x ∈ Sg ↔ x < Sg.card := by
  obtain ⟨n, h1, h2⟩ := exists_mex Sg
  have : Sg = Finset.range n := by
    ext x
    rw [Finset.mem_range]
    constructor
    · intro hx
      by_contra hlt
      rcases Nat.lt_or_ge n x with h3 | h3
      · exact h1 (h x hx n h3)
      · have : n = x := by omega
        subst this; exact h1 hx
    · exact h2 x
  intro x
  rw [this]
  simp

theorem restore_prof (h : Savable io p Sm Sg) (hd : NoGap Sg) :
    ∃ ts q, saveProf io p = some ts ∧ (∀ rest, loadProf io {} (ts ++ rest) = some (zP true true q, rest)) ∧
      RestoredP p Sm Sg q := by
  obtain ⟨pre, gl, q, pg, hgl, e1, e2, w1, w2, w3, w4, w5, w6, w7, w8, w9, w10⟩ := restore_members h
  have hr := noGap_range hd
  have hgl' : gl = List.range' 0 Sg.card := sorted_eq pg (by simp [List.pairwise_lt_range']) (by intro x; rw [hgl, hr]; simp)
  have hk : 0 + Sg.card ≤ p.groups.length := by
    rcases Nat.eq_zero_or_pos Sg.card with h0 | h0
    · omega
    · have := h.glt (Sg.card - 1) ((hr _).2 (by omega)); omega
  have h0 : PartG q p 0 q := ⟨rfl, by rw [w9]; exact Bitset.Rep.empty, by rw [w9], by rw [w9], by rw [w10]; rfl,
    fun j hj => by omega⟩
  obtain ⟨es, q2, e3, e4, h2⟩ := PartG.loop (D := D) h.sorted Sg.card 0 q h0 hk
  rw [← hgl'] at e3
  have hlen : gl.length = Sg.card := by rw [hgl']; simp
  rw [Nat.zero_add] at h2
  have hSg : Finset.range Sg.card = Sg := by ext x; rw [hr, Finset.mem_range]
  obtain ⟨nm, n1, n2⟩ := exists_mex Sm
  obtain ⟨ng, n3, n4⟩ := exists_mex Sg
  refine ⟨pre ++ es.flatten, { q2 with mbrH := ⟨q2.mbrH.handles, nm⟩, grpH := ⟨q2.grpH.handles, ng⟩ }, e1 es e3, ?_, ?_⟩
  · intro rest
    rw [List.append_assoc, e2, hlen, e4]
    have hz : zP true true ({ q2 with mbrH := ⟨q2.mbrH.handles, nm⟩, grpH := ⟨q2.grpH.handles, ng⟩ } : AProf A) = q2 := by
      have c1 : q2.mbrH.firstUnset = 0 := by rw [h2.same]; exact w3
      have c2 := h2.cur
      obtain ⟨_, _, _, ⟨hh, f⟩, ⟨hh', f'⟩, _, _, _⟩ := q2
      simp only at c1 c2
      subst c1 c2
      rfl
    rw [hz]
  · refine ⟨?_, ⟨?_, n1, n2⟩, ?_, ?_, ?_, ?_, ⟨?_, n3, n4⟩, ?_, h2.len, ?_⟩
    · show q2.withSelection = _; rw [h2.same]; exact w1
    · show q2.mbrH.handles.Rep Sm; rw [h2.same]; exact w2
    · show q2.numMembers = _; rw [h2.same]; exact w4
    · show q2.entries.length = _; rw [h2.same]; exact w5
    · intro m hm; show q2.entries[m]? = _; rw [h2.same]; exact w6 m hm
    · show q2.rc = _; rw [h2.same]; exact w7
    · have := h2.bits; rw [hSg] at this; exact this
    · show q2.numGroups = _; rw [h2.same]; exact w8
    · intro g hg
      exact h2.grp g ((hr g).1 hg)

theorem restore_hole (h : Savable io p Sm Sg) (hd : ¬ NoGap Sg) :
    ∃ ts, saveProf io p = some ts ∧ ∀ rest, loadProf io {} (ts ++ rest) = none := by
  obtain ⟨pre, gl, q, pg, hgl, e1, e2, w1, w2, w3, w4, w5, w6, w7, w8, w9, w10⟩ := restore_members h
  have h0 : PartG q p 0 q := ⟨rfl, by rw [w9]; exact Bitset.Rep.empty, by rw [w9], by rw [w9], by rw [w10]; rfl,
    fun j hj => by omega⟩
  obtain ⟨es, e3, e4⟩ := PartG.hole (D := D) h.sorted gl 0 q h0 (fun x _ => Nat.zero_le x) pg
    (fun x hx => h.glt x ((hgl x).1 hx)) (by
      intro he
      apply hd
      intro g hg j hj
      rw [← hgl] at hg ⊢
      rw [he] at hg ⊢
      simp only [List.mem_range'_1, Nat.zero_le, Nat.zero_add, true_and] at hg ⊢
      omega)
  exact ⟨pre ++ es.flatten, e1 es e3, fun rest => by rw [List.append_assoc, e2, e4]⟩

end prof
end Bm.Save
