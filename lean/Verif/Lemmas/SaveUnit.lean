import Verif.Lemmas.Save
import Mathlib.Data.Finset.Lattice.Fold
import Mathlib.Order.Nat

/-! Restoring a match unit. -/

namespace Bm.Save
open Spec MT
variable {D : Type}

/-- `set_handle` beyond the end of the bitmap, with the cursor at 0. -/
theorem setHandle_top {m : HandleMgr} {S : Finset Nat} (hb : m.handles.Rep S) (hz : m.firstUnset = 0) (x : Nat)
    (hx : m.handles.numBits ≤ x) :
    ∃ m', m.setHandle x = some (true, m') ∧ m'.handles.Rep (insert x S) ∧ m'.firstUnset = 0 ∧
      m'.handles.numBits = x + 1 := by
  have hr := hb.resize (x + 1) (by omega)
  have hN : (m.handles.resize (x + 1)).numBits = x + 1 := rfl
  obtain ⟨b', e, hn, r⟩ := hr.set (idx := x) (by omega)
  have hnot : x ∉ S := fun h => by have := hb.lt x h; omega
  have e1 : (m.handles.resize (x + 1)).set x = some (true, b') := by rw [e]; simp [hnot]
  have hb1 : b'.numBits = x + 1 := by rw [hn, hN]
  by_cases h0 : m.firstUnset = x
  · have hfu : b'.findUnsetNext x = some none := by
      unfold Bitset.findUnsetNext
      simp [hb1]
    refine ⟨⟨b', m.handles.numBits⟩, ?_, r, ?_, hb1⟩
    · simp only [HandleMgr.setHandle, ge_iff_le, hx, if_true, e1, Option.bind_eq_bind, Option.bind_some, Bool.not_true,
        Bool.false_eq_true, if_false, h0, hfu, Option.pure_def, Option.getD_none]
    · show m.handles.numBits = 0
      omega
  · refine ⟨{ m with handles := b' }, ?_, r, hz, hb1⟩
    simp only [HandleMgr.setHandle, ge_iff_le, hx, if_true, e1, Option.bind_eq_bind, Option.bind_some, Bool.not_true,
      Bool.false_eq_true, if_false, h0, Option.pure_def]

/-- The least element not in the set. -/
theorem exists_mex (S : Finset Nat) : ∃ n, n ∉ S ∧ ∀ j < n, j ∈ S := by
  classical
  have h : ∃ n, n ∉ S := ⟨S.sup id + 1, fun h => by
    have : S.sup id + 1 ≤ S.sup id := Finset.le_sup (f := id) h
    omega⟩
  exact ⟨Nat.find h, Nat.find_spec h, fun j hj => by simpa using Nat.find_min h hj⟩

variable {t : TableKind} {V R : Type}

/-- The values can be saved and read back. -/
def ValIO.Good (io : ValIO D V) (v : V) : Prop :=
  ∃ ts, io.save v = some ts ∧ ∀ rest, io.load (ts ++ rest) = some (v, rest)

/-- The entries in the slots `l` have been restored to `mu1`, starting from `mu0`; they come from `mu`. -/
structure Part (mu0 mu : MUnit t.str V R) (E : Nat → Option (t.K × V)) (now : Nat) (l : List Nat)
    (mu1 : MUnit t.str V R) : Prop where
  size : mu1.size = mu0.size
  sizeKey : mu1.sizeKey = mu0.sizeKey
  meters : mu1.meters = mu0.meters
  num : mu1.numEntries = mu0.numEntries
  bits : mu1.handles.handles.Rep l.toFinset
  cur : mu1.handles.firstUnset = 0
  top : ∀ x, (∀ y ∈ l, y < x) → mu1.handles.handles.numBits ≤ x
  ls : t.laws.Rep mu1.lstr mu0.size (fun i => if i ∈ l then (E i).map Prod.fst else none)
  ent : ∀ i, mu1.entries i = if i ∈ l then { version := (mu.entries i).version, kv := E i } else {}
  met : ∀ i, mu1.metas i =
    if i ∈ l then { ts := now, timeoutMs := (mu.metas i).timeoutMs, version := (mu.metas i).version } else {}

variable {mu0 mu mu1 : MUnit t.str V R} {E : Nat → Option (t.K × V)} {now : Nat} {l : List Nat}

theorem Part.step (hc : Copies t) (hp : 0 < nbytes t) (hr : MRep t.laws mu E) (hs : mu0.size = mu.size)
    (h : Part mu0 mu E now l mu1) (io : ValIO D V) (hio : ∀ i k v, E i = some (k, v) → io.Good v)
    (x : Nat) (hx : ∀ y ∈ l, y < x) (he : (E x).isSome = true) :
    ∃ ts mu2, saveEntry io mu x = some ts ∧ (∀ rest, loadEntry io now mu1 (ts ++ rest) = some (mu2, rest)) ∧
      Part mu0 mu E now (l ++ [x]) mu2 := by
  obtain ⟨⟨k, v⟩, hkv⟩ := Option.isSome_iff_exists.1 he
  obtain ⟨ts, e1, e2⟩ := hio x k v hkv
  obtain ⟨hent, hver⟩ := hr.ent x _ hkv
  have hlt := hr.lt hkv
  have hok : t.spec.okK k := (t.laws.ok hr.ls x k (by simp [hkv])).1
  have hnl : x ∉ l := fun hm => by have := hx x hm; omega
  obtain ⟨m', e3, hb, hcur, hn⟩ := setHandle_top h.bits h.cur x (h.top x hx)
  obtain ⟨s', e4, hs'⟩ := restoreAdd_ok t hc h.ls k x hok (by omega) (by simp [hnl]) (by
    intro j k' hj hsame
    by_cases hjl : j ∈ l
    · simp only [hjl, if_true] at hj
      have := t.laws.uniq hr.ls j x k' k hj (by simp [hkv]) hsame
      subst this; exact hnl hjl
    · simp [hjl] at hj)
  refine ⟨[.num x, .num (mu.entries x).version] ++ saveKey t k ++ ts ++ [.num (mu.metas x).timeoutMs], { mu1 with
      handles := m'
      entries := setAt mu1.entries x { version := (mu.entries x).version, kv := some (k, v) }
      lstr := s'
      metas := setAt mu1.metas x
        { (mu1.metas x).reset now with version := (mu.entries x).version, timeoutMs := (mu.metas x).timeoutMs } }, ?_, ?_, ?_⟩
  · simp only [saveEntry, hlt, if_true, hent, hver, e1, Option.bind_eq_bind, Option.bind_some, Option.pure_def]
  · intro rest
    have h1 := loadKey_save (D := D) t hc hp k hok (ts ++ (.num (mu.metas x).timeoutMs :: rest))
    have h2 := e2 (.num (mu.metas x).timeoutMs :: rest)
    have hlt1 : x < mu1.size := by rw [h.size]; omega
    simp only [List.append_assoc, List.cons_append, List.nil_append, loadEntry, readNum, Option.bind_eq_bind,
      Option.bind_some, Int.toNat_natCast, e3, Bool.not_true, Bool.false_eq_true, if_false, h1, h2, hlt1, if_true, e4,
      Option.pure_def]
  · have hmem : ∀ i, i ∈ l ++ [x] ↔ i = x ∨ i ∈ l := by intro i; simp [or_comm]
    refine ⟨h.size, h.sizeKey, h.meters, h.num, ?_, hcur, ?_, ?_, ?_, ?_⟩
    · have : (l ++ [x]).toFinset = insert x l.toFinset := by ext y; simp [or_comm]
      rw [this]; exact hb
    · intro y hy
      have := hy x (by simp)
      show m'.handles.numBits ≤ y
      omega
    · have : (fun i => if i ∈ l ++ [x] then (E i).map Prod.fst else none) =
          fun j => if j = x then some k else if j ∈ l then (E j).map Prod.fst else none := by
        funext j
        by_cases hj : j = x
        · subst hj; simp [hkv]
        · simp [hj]
      rw [this]; exact hs'
    · intro i
      by_cases hi : i = x
      · subst hi
        simp only [setAt_self, hmem, true_or, if_true, hkv]
      · simp only [setAt_of_ne _ _ hi, h.ent, hmem, hi, false_or]
    · intro i
      by_cases hi : i = x
      · subst hi
        simp only [setAt_self, hmem, true_or, if_true, h.met, hnl, if_false, MMeta.reset, hver]
      · simp only [setAt_of_ne _ _ hi, h.met, hmem, hi, false_or]

/-- All entries. -/
theorem Part.loop (hc : Copies t) (hp : 0 < nbytes t) (hr : MRep t.laws mu E) (hs : mu0.size = mu.size)
    (io : ValIO D V) (hio : ∀ i k v, E i = some (k, v) → io.Good v) : ∀ (xs l : List Nat) (mu1 : MUnit t.str V R),
    Part mu0 mu E now l mu1 → (l ++ xs).Pairwise (· < ·) → (∀ x ∈ xs, (E x).isSome = true) →
    ∃ es mu2, xs.mapM (saveEntry io mu) = some es ∧
      (∀ rest, loadEntries io now xs.length mu1 (es.flatten ++ rest) = some (mu2, rest)) ∧
      Part mu0 mu E now (l ++ xs) mu2
  | [], l, mu1, h, _, _ => ⟨[], mu1, rfl, fun rest => rfl, by simpa using h⟩
  | x :: xs, l, mu1, h, hl, hE => by
    obtain ⟨ts, mu2, e1, e2, h2⟩ := h.step hc hp hr hs io hio x
      (fun y hy => (List.pairwise_append.1 hl).2.2 y hy x (by simp)) (hE x (by simp))
    obtain ⟨es, mu3, e3, e4, h3⟩ := Part.loop hc hp hr hs io hio xs (l ++ [x]) mu2 h2 (by simpa using hl)
      (fun y hy => hE y (by simp [hy]))
    refine ⟨ts :: es, mu3, ?_, ?_, by simpa using h3⟩
    · rw [List.mapM_cons, e1, e3]; rfl
    · intro rest
      simp only [List.length_cons, List.flatten_cons, List.append_assoc, loadEntries, e2, e4, Option.bind_eq_bind,
        Option.bind_some]

/-- What becomes of a meter. -/
def MeterIO.Round (mio : MeterIO D R) (rt : R → R → R) : Prop :=
  ∀ r0 r rest, mio.load r0 (mio.save r ++ rest) = some (rt r0 r, rest)

theorem loadMeters_save (mio : MeterIO D R) (rt : R → R → R) (hm : mio.Round rt) (src : Nat → R) (n : Nat) :
    ∀ (i : Nat) (mu1 : MUnit t.str V R) (rest : List (Tok D)),
    loadMeters mio i n mu1 ((List.range' i n).flatMap (fun j => mio.save (src j)) ++ rest) =
      some ({ mu1 with meters := fun j => if i ≤ j ∧ j < i + n then rt (mu1.meters j) (src j) else mu1.meters j }, rest) := by
  induction n with
  | zero =>
    intro i mu1 rest
    have : (fun j => if i ≤ j ∧ j < i + 0 then rt (mu1.meters j) (src j) else mu1.meters j) = mu1.meters := by
      funext j; rw [if_neg (by omega)]
    rw [this]; rfl
  | succ n ih =>
    intro i mu1 rest
    simp only [List.range'_succ, List.flatMap_cons, List.append_assoc, loadMeters, hm _ _ _, Option.bind_eq_bind,
      Option.bind_some, ih]
    congr 3
    funext j
    by_cases hj : j = i
    · subst hj
      rw [if_neg (by omega), if_pos (by omega), setAt_self]
    · rw [setAt_of_ne _ _ hj]
      by_cases h2 : i + 1 ≤ j ∧ j < i + 1 + n
      · rw [if_pos h2, if_pos (by omega)]
      · rw [if_neg h2, if_neg (by omega)]

/-- A cursor at 0. -/
def z (mu : MUnit t.str V R) : MUnit t.str V R := { mu with handles := { mu.handles with firstUnset := 0 } }

/-- The restored unit, but for the cursor of the handle manager, represents the same entries. -/
structure Restored (mu0 mu : MUnit t.str V R) (E : Nat → Option (t.K × V)) (now : Nat) (rt : R → R → R)
    (mu2 : MUnit t.str V R) : Prop where
  rep : MRep t.laws mu2 E
  size : mu2.size = mu.size
  sizeKey : mu2.sizeKey = mu.sizeKey
  tab : mu2.tab E = mu.tab E
  meta' : ∀ i, (E i).isSome = true → mu2.metas i = { ts := now, timeoutMs := (mu.metas i).timeoutMs, version := (mu.metas i).version }
  meters : ∀ i < mu.size, mu2.meters i = rt (mu0.meters i) (mu.meters i)
  free : E 0 = none → z mu2 = mu2

theorem restore_unit (hc : Copies t) (hp : mu.sizeKey = 0 → ∀ i, E i = none) (hn : mu.sizeKey = nbytes t)
    (hr : MRep t.laws mu E) (m0 : Nat → R) (io : ValIO D V) (hio : ∀ i k v, E i = some (k, v) → io.Good v)
    (mio : MeterIO D R) (rt : R → R → R) (hm : mio.Round rt) (now : Nat) :
    ∃ ts mu2, saveUnit io mio mu = some ts ∧
      (∀ rest, loadUnit io mio now (MUnit.init t.str V mu.size mu.sizeKey m0) (ts ++ rest) = some (z mu2, rest)) ∧
      Restored (MUnit.init t.str V mu.size mu.sizeKey m0) mu E now rt mu2 := by
  obtain ⟨S, hS, hcard, hSE⟩ := hr.hm
  obtain ⟨l, e1, hpw, hl⟩ := hS.iterate
  have hlS : l.toFinset = S := by ext x; simp [hl]
  have hlen : l.length = mu.numEntries := by
    rw [hcard, ← hlS, List.toFinset_card_of_nodup (hpw.imp (fun h => Nat.ne_of_lt h))]
  let mu0 : MUnit t.str V R := { MUnit.init t.str V mu.size mu.sizeKey m0 with numEntries := mu.numEntries }
  have h0 : Part mu0 mu E now [] mu0 :=
    ⟨rfl, rfl, rfl, rfl, Bitset.Rep.empty, rfl, fun x _ => Nat.zero_le _, by simp only [List.not_mem_nil, if_false]; exact t.laws.init mu.size, by simp [mu0, MUnit.init],
      by simp [mu0, MUnit.init]⟩
  have hloop : ∃ es mu2, l.mapM (saveEntry io mu) = some es ∧
      (∀ rest, loadEntries io now l.length mu0 (es.flatten ++ rest) = some (mu2, rest)) ∧ Part mu0 mu E now l mu2 := by
    by_cases hz : mu.sizeKey = 0
    · have : l = [] := by
        cases hq : l with
        | nil => rfl
        | cons a l' =>
          have := (hSE a).1 ((hl a).1 (by simp [hq]))
          simp [hp hz a] at this
      subst this
      exact ⟨[], mu0, rfl, fun rest => rfl, h0⟩
    · obtain ⟨es, mu2, h1, h2, h3⟩ := Part.loop (mu0 := mu0) (now := now) hc (by omega) hr rfl io hio l [] mu0 h0 (by simpa using hpw)
        (fun x hx => (hSE x).1 ((hl x).1 hx))
      exact ⟨es, mu2, h1, h2, by simpa using h3⟩
  obtain ⟨es, mu2, h1, h2, h3⟩ := hloop
  obtain ⟨n, hn1, hn2⟩ := exists_mex S
  have hmem : ∀ i, i ∈ l ↔ (E i).isSome = true := fun i => (hl i).trans (hSE i)
  let mu3 : MUnit t.str V R := { mu2 with
    handles := { mu2.handles with firstUnset := n }
    meters := fun j => if 0 ≤ j ∧ j < 0 + mu.size then rt (mu2.meters j) (mu.meters j) else mu2.meters j }
  have hz3 : z mu3 = { mu2 with
      meters := fun j => if 0 ≤ j ∧ j < 0 + mu.size then rt (mu2.meters j) (mu.meters j) else mu2.meters j } := by
    have hc2 := h3.cur
    obtain ⟨_, _, _, ⟨hh, f⟩, _, _, _, _⟩ := mu2
    simp only at hc2
    subst hc2
    rfl
  refine ⟨[.num mu.numEntries] ++ es.flatten ++ saveMeters mio mu, mu3, by simp only [saveUnit, e1, h1, Option.bind_eq_bind, Option.bind_some, Option.pure_def], ?_, ?_⟩
  · intro rest
    have hsz : mu2.size = mu.size := h3.size
    simp only [loadUnit, List.append_assoc, List.cons_append, List.nil_append, readNum, Option.bind_eq_bind,
      Option.bind_some, Int.toNat_natCast]
    have h2' := h2 (saveMeters mio mu ++ rest)
    rw [hlen] at h2'
    show ((loadEntries io now mu.numEntries mu0 _).bind fun x => _) = _
    rw [h2', Option.bind_some]
    show loadMeters mio 0 mu2.size mu2 _ = _
    rw [hsz, saveMeters, List.range_eq_range', loadMeters_save mio rt hm mu.meters mu.size 0 mu2 rest, hz3]
  · have hE : (fun i => if i ∈ l then (E i).map Prod.fst else none) = fun i => (E i).map Prod.fst := by
      funext i
      by_cases hi : i ∈ l
      · simp [hi]
      · have : E i = none := by
          cases hq : E i with
          | none => rfl
          | some kv => exact absurd ((hmem i).2 (by simp [hq])) hi
        simp [this]
    have hnone : ∀ i, i ∉ l → E i = none := by
      intro i hi
      cases hq : E i with
      | none => rfl
      | some kv => exact absurd ((hmem i).2 (by simp [hq])) hi
    refine ⟨⟨?_, ⟨S, ⟨?_, hn1, hn2⟩, ?_, hSE⟩, ?_, ?_, ?_⟩, h3.size, h3.sizeKey, ?_, ?_, ?_, ?_⟩
    · show mu2.size ≤ _; rw [h3.size]; exact hr.size
    · have := h3.bits; rw [hlS] at this; exact this
    · show mu2.numEntries = _; rw [h3.num]; exact hcard
    · have := h3.ls; rw [hE] at this
      show t.laws.Rep mu2.lstr mu2.size _
      rw [h3.size]; exact this
    · intro i kv hi
      have him : i ∈ l := (hmem i).2 (by simp [hi])
      show (mu2.entries i).kv = _ ∧ (mu2.metas i).version = (mu2.entries i).version
      rw [h3.ent, h3.met, if_pos him, if_pos him]
      exact ⟨hi, (hr.ent i kv hi).2⟩
    · intro i
      show (mu2.entries i).version < 256
      rw [h3.ent]
      by_cases him : i ∈ l
      · rw [if_pos him]; exact hr.ver i
      · rw [if_neg him]; show (0 : Nat) < 256; decide
    · funext h
      simp only [MUnit.tab]
      show (if handleVersion h = (mu2.entries (handleInternal h)).version then _ else _) = _
      by_cases him : handleInternal h ∈ l
      · rw [h3.ent, if_pos him]
      · rw [hnone _ him]; simp
    · intro i hi
      show mu2.metas i = _
      rw [h3.met, if_pos ((hmem i).2 hi)]
    · intro i hi
      show (if 0 ≤ i ∧ i < 0 + mu.size then rt (mu2.meters i) (mu.meters i) else mu2.meters i) = _
      rw [if_pos (by omega), h3.meters]
    · intro h00
      have : n = 0 := by
        rcases Nat.eq_zero_or_pos n with h | h
        · exact h
        · have := (hSE 0).1 (hn2 0 h)
          simp [h00] at this
      simp only [z, mu3, this]

end Bm.Save
