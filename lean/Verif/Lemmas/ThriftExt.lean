import Verif.Model.ThriftExt
import Verif.Props.Register
import Verif.Lemmas.MeterBound
import Verif.Lemmas.ParseVSet
import Mathlib.Data.List.Basic

/-!
# Lemmas about the requests for registers, counters, meters and value sets
-/

namespace Bm.ThriftExt
open Bm.ThriftExt.Spec

variable {R : Type}

/-! ## Indices -/

theorem toSize_inside {i : Int32} {size : Nat} (h : Inside i size) : toSize i = pos i ∧ pos i < size := by
  have h1 := i.toInt_lt
  simp only [Inside] at h
  simp only [toSize, pos]
  generalize i.toInt = x at *
  omega

theorem toSize_outside {i : Int32} {size : Nat} (hs : size < 2 ^ 63) (h : ¬ Inside i size) : size ≤ toSize i := by
  have h1 := i.toInt_lt
  have h2 := i.le_toInt
  simp only [Inside] at h
  simp only [toSize]
  generalize i.toInt = x at *
  omega

theorem toCxt_inside {i : Int32} {size : Nat} (h : Inside i size) : toCxt i = pos i ∧ pos i < size := by
  have h1 := i.toInt_lt
  simp only [Inside] at h
  simp only [toCxt, pos]
  generalize i.toInt = x at *
  omega

theorem toCxt_outside {i : Int32} {size : Nat} (hs : size ≤ 2 ^ 31) (h : ¬ Inside i size) : size ≤ toCxt i := by
  have h1 := i.toInt_lt
  have h2 := i.le_toInt
  simp only [Inside] at h
  simp only [toCxt]
  generalize i.toInt = x at *
  omega

theorem range_iff {i j : Int32} {size : Nat} (hs : size < 2 ^ 63) :
    Range i j size ↔ ¬ (toSize j > size ∨ toSize i > toSize j) := by
  have h1 := i.toInt_lt
  have h2 := i.le_toInt
  have h3 := j.toInt_lt
  have h4 := j.le_toInt
  simp only [Range, toSize]
  generalize i.toInt = x at *
  generalize j.toInt = y at *
  omega

theorem range_pos {i j : Int32} {size : Nat} (h : Range i j size) :
    toSize i = pos i ∧ toSize j = pos j ∧ pos i ≤ pos j ∧ pos j ≤ size := by
  have h1 := i.toInt_lt
  have h3 := j.toInt_lt
  simp only [Range] at h
  simp only [toSize, pos]
  generalize i.toInt = x at *
  generalize j.toInt = y at *
  omega

theorem burst_back (b : Int32) : Int32.ofInt (toSize b : Int) = b := by
  apply Int32.toInt.inj
  rw [Int32.toInt_ofInt]
  have h1 := b.toInt_lt
  have h2 := b.le_toInt
  simp only [toSize]
  have : Int32.size = 2 ^ 32 := rfl
  rw [this, Int.bmod_def]
  generalize b.toInt = x at *
  omega

theorem ofConfigs_toConfigs (rs : List (R × Int32)) : ofConfigs (toConfigs rs) = rs := by
  simp [ofConfigs, toConfigs, burst_back, Function.comp_def]

/-! ## Relation -/

/-- Both are there or none. -/
def Both {α β : Type} (r : α → β → Prop) : Option α → Option β → Prop
  | none, none => True
  | some a, some b => r a b
  | _, _ => False

theorem Both.none_left {α β : Type} {r : α → β → Prop} {b : Option β} (h : Both r none b) : b = none := by
  cases b <;> simp_all [Both]

theorem Both.some_left {α β : Type} {r : α → β → Prop} {a : α} {b : Option β} (h : Both r (some a) b) :
    ∃ x, b = some x ∧ r a x := by
  cases b with
  | none => exact h.elim
  | some x => exact ⟨x, rfl, h⟩

theorem Both.put {α β : Type} {r : α → β → Prop} {f : Nat → Option α} {g : Nat → Option β}
    (h : ∀ n, Both r (f n) (g n)) {n : Nat} {a : α} {b : β} (hr : r a b) :
    ∀ m, Both r (ThriftExt.put f n a m) (upd g n b m) := by
  intro m
  by_cases hm : m = n
  · simp [ThriftExt.put, upd, hm, Both, hr]
  · simp only [ThriftExt.put, upd, hm, if_false]; exact h m

theorem Both.map {α β γ δ : Type} {r : α → β → Prop} {q : γ → δ → Prop} {f : α → γ} {g : β → δ} {a : Option α}
    {b : Option β} (h : Both r a b) (hi : ∀ x y, r x y → q (f x) (g y)) : Both q (a.map f) (b.map g) := by
  cases a <;> cases b <;> simp_all [Both]

def RegRel (a : Reg.Arr) (b : RegS) : Prop :=
  a.width = b.width ∧ a.cells.length = b.size ∧ b.size < 2 ^ 63 ∧ ∀ (k : Nat) (x : Int), a.cells[k]? = some x → x = b.val k

/-- A 64-bit word for an integer. -/
def Word (n : Nat) (v : Int) : Prop := n < 2 ^ 64 ∧ (2 : Int) ^ 64 ∣ v - n

def CntRel (a : List Counters.Counter) (b : CntS) : Prop :=
  a.length = b.size ∧ b.size < 2 ^ 63 ∧
    ∀ k c, a[k]? = some c → Word c.bytes (b.bytes k) ∧ Word c.packets (b.packets k)

def MtrRel (a : List (Meter.Meter R)) (b : MtrS R) : Prop :=
  a.length = b.size ∧ b.size < 2 ^ 63 ∧
    ∀ k m, a[k]? = some m → m.rates.length = b.nrates ∧ Meter.getRates m = toConfigs (b.cfg k)

/-- The shadows have select cases that are well formed. -/
def ShadowOk (cbits : Nat) (s : VSet.Shadow) : Prop := ∃ ws, s.widths = some ws ∧ VSet.CaseOk cbits ws s.mask

def VSetRel (a : VSet.VSet) (b : VSetS) : Prop :=
  a.base.widths = none ∧ a.base.mask = none ∧ a.base.cbits = b.width ∧ a.base.set.Nodup ∧
    (∀ v, v ∈ a.base.set ↔ b.mem v) ∧ ∀ s ∈ a.shadows, ShadowOk b.width s

structure Rel (c : Ctx R) (S : St R) : Prop where
  regs : ∀ n, Both RegRel (c.regs n) (S.regs n)
  cnts : ∀ n, Both CntRel (c.cnts n) (S.cnts n)
  mtrs : ∀ n, Both MtrRel (c.mtrs n) (S.mtrs n)
  vsets : ∀ n, Both VSetRel (c.vsets n) (S.vsets n)

/-! ## Registers -/

theorem mask_keep (w : Nat) (v : Int) : Reg.mask w v = (keep w v : Int) := by
  rw [Reg.mask_eq]
  have : (0 : Int) < 2 ^ w := Int.pow_pos (by omega)
  have := Int.emod_nonneg v (Int.ne_of_gt this)
  simp only [keep]
  omega

theorem RegRel.set {a : Reg.Arr} {b : RegS} (h : RegRel a b) {k : Nat} (hk : k < b.size) (v : Int) :
    ∃ a', a.set k v = some a' ∧ RegRel a' { b with val := Spec.put b.val k (keep b.width v) } := by
  obtain ⟨h1, h2, h3, h4⟩ := h
  refine ⟨{ a with cells := a.cells.set k (Reg.mask a.width v) }, by simp [Reg.Arr.set, h2, hk], h1, by simp [h2], h3, ?_⟩
  intro m x hx
  simp only [List.getElem?_set] at hx
  by_cases hm : k = m
  · subst hm
    rw [if_pos rfl, h2, if_pos hk] at hx
    cases hx
    simp [Spec.put, mask_keep, h1]
  · rw [if_neg hm] at hx
    simp only [Spec.put, Ne.symm hm, if_false]
    exact h4 m x hx

theorem RegRel.fill {b : RegS} {v : Int} : ∀ (n : Nat) {a : Reg.Arr} {lo : Nat}, RegRel a b → lo + n ≤ b.size →
    ∃ a', a.setRange v lo n = some a' ∧ RegRel a' (b.fill lo (lo + n) (keep b.width v))
  | 0, a, lo, h, _ => by
    refine ⟨a, rfl, h.1, h.2.1, h.2.2.1, fun k x hx => ?_⟩
    simp only [RegS.fill]
    rw [if_neg (by omega)]
    exact h.2.2.2 k x hx
  | n + 1, a, lo, h, hl => by
    obtain ⟨a1, e1, h1⟩ := h.set (k := lo) (by omega) v
    have hgen : ∀ (n : Nat) (a : Reg.Arr) (lo : Nat), lo + n ≤ a.cells.length →
        ∃ a', a.setRange v lo n = some a' := by
      intro n
      induction n with
      | zero => intro a lo _; exact ⟨a, rfl⟩
      | succ n ih =>
        intro a lo hlo
        simp only [Reg.Arr.setRange, Reg.Arr.set]
        rw [if_pos (by omega)]
        exact ih _ _ (by simp only [List.length_set]; omega)
    obtain ⟨a', e⟩ := hgen (n + 1) a lo (by rw [h.2.1]; exact hl)
    obtain ⟨q1, q2, q3⟩ := Reg.setRange_spec e
    refine ⟨a', e, by rw [q1]; exact h.1, by rw [q2]; exact h.2.1, h.2.2.1, fun k x hx => ?_⟩
    rw [q3] at hx
    simp only [RegS.fill]
    by_cases hk : lo ≤ k ∧ k < lo + (n + 1)
    · rw [if_pos hk] at hx ⊢
      cases hx
      rw [← mask_keep, Reg.mask_eq, h.1]
    · rw [if_neg hk] at hx ⊢
      exact h.2.2.2 k x hx

theorem RegRel.reset {a : Reg.Arr} {b : RegS} (h : RegRel a b) : RegRel a.reset { b with val := fun _ => 0 } := by
  refine ⟨h.1, by simp [Reg.Arr.reset, h.2.1], h.2.2.1, fun k x hx => ?_⟩
  simp only [Reg.Arr.reset, List.getElem?_replicate] at hx
  split at hx
  · cases hx; rfl
  · cases hx

/-! ## Counters -/

theorem word_u64 (x : Int64) : Word (toU64 x) x.toInt := by
  have h1 := x.toInt_lt
  have h2 := x.le_toInt
  simp only [Word, toU64]
  generalize x.toInt = y at *
  omega

theorem word_cong {n : Nat} {v : Int} (h : Word n v) : Cong (Int64.ofInt n) v := by
  obtain ⟨h1, h2⟩ := h
  simp only [Cong, Int64.toInt_ofInt]
  have : Int64.size = 2 ^ 64 := rfl
  rw [this, Int.bmod_def]
  split <;> omega

theorem word_add {n : Nat} {v : Int} (h : Word n v) (l : Nat) : Word ((n + l) % 2 ^ 64) (v + l) := by
  obtain ⟨h1, h2⟩ := h
  simp only [Word]
  omega

theorem CntRel.set {a : List Counters.Counter} {b : CntS} (h : CntRel a b) {k : Nat} {c : Counters.Counter} {x y : Int}
    (hx : Word c.bytes x) (hy : Word c.packets y) : CntRel (a.set k c) (b.set k x y) := by
  refine ⟨by simp [h.1, CntS.set], h.2.1, fun m d hd => ?_⟩
  simp only [List.getElem?_set] at hd
  by_cases hm : k = m
  · subst hm
    rw [if_pos rfl] at hd
    split at hd
    · cases hd; simp [CntS.set, Spec.put, hx, hy]
    · cases hd
  · rw [if_neg hm] at hd
    simp only [CntS.set, Spec.put, Ne.symm hm, if_false]
    exact h.2.2 m d hd

theorem CntRel.reset {a : List Counters.Counter} {b : CntS} (h : CntRel a b) :
    CntRel (a.map fun k => cntOp k (.set 0 0 0)) { b with bytes := fun _ => 0, packets := fun _ => 0 } := by
  refine ⟨by simp [h.1], h.2.1, fun m d hd => ?_⟩
  simp only [List.getElem?_map, Option.map_eq_some_iff] at hd
  obtain ⟨k, _, rfl⟩ := hd
  simp [cntOp, Counters.Op.steps, Counters.Counter.step, Word]

/-! ## Meters -/

theorem codeOf_ascending (A : Meter.RateArith R) : ∀ (rs : List (R × Int32)), ascending A.gt rs = true →
    Meter.codeOf A none (toConfigs rs) = .success := by
  have key : ∀ (rs : List (R × Int32)) (p : R × Int32), ascending A.gt (p :: rs) = true →
      Meter.codeOf A (some p.1) (toConfigs rs) = .success := by
    intro rs
    induction rs with
    | nil => intro p _; rfl
    | cons q rs ih =>
      intro p h
      simp only [ascending, Bool.and_eq_true, Bool.not_eq_true'] at h
      simp only [toConfigs, List.map_cons, Meter.codeOf, h.1, Bool.false_eq_true, if_false]
      exact ih q h.2
  intro rs h
  cases rs with
  | nil => rfl
  | cons p rs => exact key rs p h

theorem getRates_set (m : Meter.Meter R) (cs : List (Meter.Config R)) :
    Meter.getRates { m with rates := (Meter.toRates cs 0).reverse, configured := true } = cs := by
  simp only [Meter.getRates, Bool.not_true, Bool.false_eq_true, if_false, List.map_reverse, List.reverse_reverse]
  have : ∀ (cs : List (Meter.Config R)) (i : Nat),
      (Meter.toRates cs i).map (fun r => (⟨r.infoRate, r.burst⟩ : Meter.Config R)) = cs := by
    intro cs
    induction cs with
    | nil => intro i; rfl
    | cons c cs ih => intro i; simp [Meter.toRates, Meter.Config.toRate, ih]
  exact this cs 0

theorem setRates_good {A : Meter.RateArith R} {m : Meter.Meter R} {rs : List (R × Int32)} {n : Nat}
    (hm : m.rates.length = n) (hl : rs.length = n) (ha : ascending A.gt rs = true) :
    ∃ m', Meter.setRates A m (toConfigs rs) = some (.success, m') ∧ m'.rates.length = n ∧
      Meter.getRates m' = toConfigs rs := by
  obtain ⟨r, _, e⟩ := Meter.setRates_eq (A := A) m (toConfigs rs) (by simp [toConfigs, hl, hm])
  rw [codeOf_ascending A rs ha, if_pos rfl] at e
  exact ⟨_, e, by simp [Meter.toRates_length, toConfigs, hl], getRates_set _ _⟩

theorem setRates_bad {A : Meter.RateArith R} {m : Meter.Meter R} {rs : List (R × Int32)} {n : Nat}
    (hm : m.rates.length = n) (hl : rs.length ≠ n) :
    Meter.setRates A m (toConfigs rs) = some (.badRatesList, m) := by
  simp [Meter.setRates, toConfigs, hl, hm]

theorem arraySet_good {A : Meter.RateArith R} {rs : List (R × Int32)} {n : Nat} (hl : rs.length = n)
    (ha : ascending A.gt rs = true) : ∀ (ms : List (Meter.Meter R)), (∀ m ∈ ms, m.rates.length = n) →
    ∃ ms', Meter.arraySetRates A ms (toConfigs rs) = some (.success, ms') ∧ ms'.length = ms.length ∧
      ∀ m ∈ ms', m.rates.length = n ∧ Meter.getRates m = toConfigs rs
  | [], _ => ⟨[], rfl, rfl, by simp⟩
  | m :: ms, h => by
    obtain ⟨m', e1, e2, e3⟩ := setRates_good (A := A) (h m (by simp)) hl ha
    obtain ⟨ms', f1, f2, f3⟩ := arraySet_good hl ha ms fun x hx => h x (by simp [hx])
    refine ⟨m' :: ms', ?_, by simp [f2], ?_⟩
    · simp [Meter.arraySetRates, e1, f1]
    · intro x hx
      rcases List.mem_cons.1 hx with rfl | hx
      · exact ⟨e2, e3⟩
      · exact f3 x hx

theorem execRates_keeps {A : Meter.RateArith R} (micros input : Nat) : ∀ (rs : List (Meter.Rate R)) {v rs'},
    Meter.execRates A micros input rs = some (v, rs') → rs'.length = rs.length ∧
      rs'.map (fun r => (⟨r.infoRate, r.burst⟩ : Meter.Config R)) = rs.map fun r => ⟨r.infoRate, r.burst⟩
  | [], v, rs', h => by
    simp only [Meter.execRates, Option.some.injEq, Prod.mk.injEq] at h
    obtain ⟨_, rfl⟩ := h
    exact ⟨rfl, rfl⟩
  | r :: rs, v, rs', h => by
    unfold Meter.execRates at h
    simp only [] at h
    split at h
    · cases h
    split at h
    · cases h
    split at h
    · simp only [Option.some.injEq, Prod.mk.injEq] at h
      obtain ⟨_, rfl⟩ := h
      simp
    · simp only [Option.bind_eq_bind, Option.bind_eq_some_iff, Option.pure_def, Option.some.injEq] at h
      obtain ⟨⟨v', rs1⟩, h1, heq⟩ := h
      obtain ⟨_, rfl⟩ := Prod.mk.inj heq
      obtain ⟨q1, q2⟩ := execRates_keeps micros input rs h1
      simp [q1, q2]

theorem execute_keeps {A : Meter.RateArith R} {m m' : Meter.Meter R} {now len pre c : Nat}
    (h : Meter.execute A m now len pre = some (c, m')) :
    m'.rates.length = m.rates.length ∧ Meter.getRates m' = Meter.getRates m := by
  by_cases hc : m.configured = true
  · obtain ⟨v, h1, _, h3, _⟩ := Meter.execute_rates hc h
    obtain ⟨q1, q2⟩ := execRates_keeps _ _ _ h1
    refine ⟨q1, ?_⟩
    simp [Meter.getRates, hc, h3, q2]
  · simp only [Meter.execute, hc, Bool.not_false, if_true, Option.some.injEq, Prod.mk.injEq] at h
    rw [h.2]
    exact ⟨rfl, rfl⟩

theorem MtrRel.set {a : List (Meter.Meter R)} {b : MtrS R} (h : MtrRel a b) {k : Nat} {m : Meter.Meter R}
    {rs : List (R × Int32)} (h1 : m.rates.length = b.nrates) (h2 : Meter.getRates m = toConfigs rs) :
    MtrRel (a.set k m) { b with cfg := Spec.put b.cfg k rs } := by
  refine ⟨by simp [h.1], h.2.1, fun j d hd => ?_⟩
  simp only [List.getElem?_set] at hd
  by_cases hm : k = j
  · subst hm
    rw [if_pos rfl] at hd
    split at hd
    · cases hd; simp [Spec.put, h1, h2]
    · cases hd
  · rw [if_neg hm] at hd
    simp only [Spec.put, Ne.symm hm, if_false]
    exact h.2.2 j d hd

theorem MtrRel.same {a : List (Meter.Meter R)} {b : MtrS R} (h : MtrRel a b) {k : Nat} {m m' : Meter.Meter R}
    (hm : a[k]? = some m) (h1 : m'.rates.length = m.rates.length) (h2 : Meter.getRates m' = Meter.getRates m) :
    MtrRel (a.set k m') b := by
  refine ⟨by simp [h.1], h.2.1, fun j d hd => ?_⟩
  simp only [List.getElem?_set] at hd
  by_cases hj : k = j
  · subst hj
    rw [if_pos rfl] at hd
    split at hd
    · cases hd
      have := h.2.2 k m hm
      exact ⟨by rw [h1]; exact this.1, by rw [h2]; exact this.2⟩
    · cases hd
  · rw [if_neg hj] at hd
    exact h.2.2 j d hd

theorem MtrRel.reset {a : List (Meter.Meter R)} {b : MtrS R} (h : MtrRel a b) :
    MtrRel (Meter.arrayReset a) { b with cfg := fun _ => [] } := by
  refine ⟨by simp [Meter.arrayReset, h.1], h.2.1, fun j d hd => ?_⟩
  simp only [Meter.arrayReset, List.getElem?_map, Option.map_eq_some_iff] at hd
  obtain ⟨m, hm, rfl⟩ := hd
  exact ⟨(h.2.2 j m hm).1, by simp [Meter.getRates, Meter.resetRates, toConfigs]⟩

/-! ## Value sets -/

theorem stored_some {cbits : Nat} {s : VSet.Shadow} (h : ShadowOk cbits s) {v : Bytes}
    (hv : v.length = (cbits + 7) / 8) : ∃ x, s.stored v = some x := by
  obtain ⟨ws, hw, c⟩ := h
  have hk : ∃ k, VSet.doPadding (some ws) v = some k ∧ k.length = (ws.map fun w => (w + 7) / 8).sum := by
    by_cases h1 : ws.length = 1
    · refine ⟨v, by simp [VSet.doPadding, h1], ?_⟩
      obtain ⟨w, rfl⟩ := List.length_eq_one_iff.1 h1
      have := c.sum
      simp only [List.sum_cons, List.sum_nil, Nat.add_zero] at this
      simp [hv, this]
    · obtain ⟨k, hk, hk1, _⟩ := VSet.padLoop_spec ws v (8 * v.length - cbits) c.pos (by omega)
        (by rw [c.sum]; omega)
      refine ⟨k, ?_, VSet.laid_length ws k hk1⟩
      simp only [VSet.doPadding, h1, if_false, c.sum, hv, if_true]
      rw [← hk, hv]
  obtain ⟨k, k1, k2⟩ := hk
  cases hm : s.mask with
  | none => exact ⟨k, by simp [VSet.Shadow.stored, hw, hm, k1, VSet.transform, VSet.Shadow.width, k2]⟩
  | some m =>
    obtain ⟨m1, m2⟩ := c.mask m hm
    have := VSet.aligned_length m2
    rw [c.sum] at this
    refine ⟨List.zipWith (· &&& ·) k m, ?_⟩
    have hle : k.length ≤ m.length := by omega
    have h3 : (List.zipWith (· &&& ·) k m).length = (ws.map fun w => (w + 7) / 8).sum := by
      rw [List.length_zipWith]; omega
    simp only [VSet.Shadow.stored, hw, hm, k1, VSet.transform, VSet.Shadow.width, hle, if_true, h3, Option.bind_eq_bind,
      Option.bind_some, Option.pure_def]

theorem base_stored {a : VSet.VSet} {b : VSetS} (h : VSetRel a b) {v : Bytes} (hv : v.length = b.bytes) :
    a.base.stored v = some v := by
  obtain ⟨h1, h2, h3, _⟩ := h
  simp only [VSetS.bytes] at hv
  simp [VSet.Shadow.stored, h1, h2, VSet.doPadding, VSet.transform, VSet.Shadow.width, h3, hv]

theorem mapM_some {α β : Type} (f : α → Option β) (Q : β → Prop) : ∀ (l : List α),
    (∀ x ∈ l, ∃ y, f x = some y ∧ Q y) → ∃ l', l.mapM f = some l' ∧ ∀ y ∈ l', Q y
  | [], _ => ⟨[], by simp, by simp⟩
  | x :: l, h => by
    obtain ⟨y, e1, e2⟩ := h x (by simp)
    obtain ⟨l', f1, f2⟩ := mapM_some f Q l fun z hz => h z (by simp [hz])
    exact ⟨y :: l', by simp [e1, f1], by simp_all⟩

theorem shadows_exec {cbits : Nat} {o : VSet.Op} (ho : ∀ v, (o = .add v ∨ o = .remove v) → v.length = (cbits + 7) / 8)
    {s : VSet.Shadow} (h : ShadowOk cbits s) : ∃ t, s.exec o = some t ∧ ShadowOk cbits t := by
  cases o with
  | add v =>
    obtain ⟨x, hx⟩ := stored_some h (ho v (.inl rfl))
    exact ⟨{ s with set := List.insert x s.set }, by simp [VSet.Shadow.exec, VSet.Shadow.add, hx], h⟩
  | remove v =>
    obtain ⟨x, hx⟩ := stored_some h (ho v (.inr rfl))
    exact ⟨{ s with set := s.set.erase x }, by simp [VSet.Shadow.exec, VSet.Shadow.remove, hx], h⟩
  | clear => exact ⟨_, rfl, h⟩

theorem VSetRel.add {a : VSet.VSet} {b : VSetS} (h : VSetRel a b) {v : Bytes} (hv : v.length = b.bytes) :
    ∃ a', a.exec (.add v) = some a' ∧ VSetRel a' { b with mem := fun u => u = v ∨ b.mem u } := by
  have hb := base_stored h hv
  obtain ⟨h1, h2, h3, h4, h5, h6⟩ := h
  obtain ⟨l, e1, e2⟩ := mapM_some (fun s => s.exec (VSet.Op.add v)) (ShadowOk b.width) a.shadows
    fun s hs => shadows_exec (fun u hu => by rcases hu with hu | hu <;> cases hu; exact hv) (h6 s hs)
  exact ⟨⟨{ a.base with set := List.insert v a.base.set }, l⟩, by
    have hx : a.base.exec (.add v) = some { a.base with set := List.insert v a.base.set } := by
      simp [VSet.Shadow.exec, VSet.Shadow.add, hb]
    simp only [VSet.VSet.exec, hx, e1, Option.bind_eq_bind, Option.bind_some, Option.pure_def], h1, h2, h3, h4.insert, by simp [h5], e2⟩

theorem VSetRel.remove {a : VSet.VSet} {b : VSetS} (h : VSetRel a b) {v : Bytes} (hv : v.length = b.bytes) :
    ∃ a', a.exec (.remove v) = some a' ∧ VSetRel a' { b with mem := fun u => u ≠ v ∧ b.mem u } := by
  have hb := base_stored h hv
  obtain ⟨h1, h2, h3, h4, h5, h6⟩ := h
  obtain ⟨l, e1, e2⟩ := mapM_some (fun s => s.exec (VSet.Op.remove v)) (ShadowOk b.width) a.shadows
    fun s hs => shadows_exec (fun u hu => by rcases hu with hu | hu <;> cases hu; exact hv) (h6 s hs)
  exact ⟨⟨{ a.base with set := a.base.set.erase v }, l⟩, by
    have hx : a.base.exec (.remove v) = some { a.base with set := a.base.set.erase v } := by
      simp [VSet.Shadow.exec, VSet.Shadow.remove, hb]
    simp only [VSet.VSet.exec, hx, e1, Option.bind_eq_bind, Option.bind_some, Option.pure_def], h1, h2, h3, h4.erase v, by intro u; simp [h4.mem_erase_iff, h5], e2⟩

theorem VSetRel.clear {a : VSet.VSet} {b : VSetS} (h : VSetRel a b) :
    ∃ a', a.exec .clear = some a' ∧ VSetRel a' { b with mem := fun _ => False } := by
  obtain ⟨h1, h2, h3, h4, h5, h6⟩ := h
  obtain ⟨l, e1, e2⟩ := mapM_some (fun s => s.exec VSet.Op.clear) (ShadowOk b.width) a.shadows
    fun s hs => shadows_exec (fun u hu => by rcases hu with hu | hu <;> cases hu) (h6 s hs)
  exact ⟨⟨a.base.clear, l⟩, by
    have hx : a.base.exec .clear = some a.base.clear := rfl
    simp only [VSet.VSet.exec, hx, e1, Option.bind_eq_bind, Option.bind_some, Option.pure_def], h1, h2, h3, by simp [VSet.Shadow.clear], by simp [VSet.Shadow.clear], e2⟩

/-! ## Requests -/

theorem Rel.setRegs {c : Ctx R} {S : St R} (h : Rel c S) {n : Nat} {a : Reg.Arr} {b : RegS} (hr : RegRel a b) :
    Rel { c with regs := c.regs.put n a } { S with regs := upd S.regs n b } :=
  { h with regs := fun m => Both.put (f := c.regs) h.regs hr m }

theorem Rel.setCnts {c : Ctx R} {S : St R} (h : Rel c S) {n : Nat} {a : List Counters.Counter} {b : CntS}
    (hr : CntRel a b) : Rel { c with cnts := put c.cnts n a } { S with cnts := upd S.cnts n b } :=
  { h with cnts := Both.put h.cnts hr }

theorem Rel.setMtrs {c : Ctx R} {S : St R} (h : Rel c S) {n : Nat} {a : List (Meter.Meter R)} {b : MtrS R}
    (hr : MtrRel a b) : Rel { c with mtrs := put c.mtrs n a } { S with mtrs := upd S.mtrs n b } :=
  { h with mtrs := Both.put h.mtrs hr }

theorem Rel.setVsets {c : Ctx R} {S : St R} (h : Rel c S) {n : Nat} {a : VSet.VSet} {b : VSetS}
    (hr : VSetRel a b) : Rel { c with vsets := put c.vsets n a } { S with vsets := upd S.vsets n b } :=
  { h with vsets := Both.put h.vsets hr }

theorem put_same {α : Type} {f : Nat → Option α} {n : Nat} {a : α} (h : f n = some a) : put f n a = f := by
  funext m
  by_cases hm : m = n
  · simp [put, hm, h]
  · simp [put, hm]

section
variable {conv : Int → Int64} (hconv : ∀ x : Int64, conv x.toInt = x) {A : Meter.RateArith R} {c : Ctx R} {S : St R}
  (h : Rel c S)
include h

/-- What a request should do. -/
def Good (conv : Int → Int64) (A : Meter.RateArith R) (c : Ctx R) (S : St R) (r : Req R) : Prop :=
  ∃ rep c', c.exec conv A r = some (rep, c') ∧ Says A.gt S r rep ∧ Rel c' (next A.gt S r)

include hconv in
omit h in
theorem conv_eq {v : Nat} (hv : v < 2 ^ 63) : (conv (v : Int)).toInt = v := by
  have : (Int64.ofInt v).toInt = v := Int64.toInt_ofInt_of_le (by omega) (by omega)
  rw [← this, hconv]

include hconv in
theorem good_regRead {n : Nat} {i : Int32} (hf : Fits A.gt S (.regRead n i)) : Good conv A c S (.regRead n i) := by
  have hr := h.regs n
  simp only [Good, Ctx.exec, Ctx.regRead, Reg.Ctx.read, Says, next]
  cases hc : c.regs n with
  | none =>
    rw [hc] at hr
    rw [hr.none_left]
    exact ⟨_, c, rfl, rfl, h⟩
  | some a =>
    rw [hc] at hr
    obtain ⟨b, hb, h1, h2, h3, h4⟩ := hr.some_left
    rw [hb]
    simp only [h2]
    by_cases hi : Inside i b.size
    · obtain ⟨e1, e2⟩ := toSize_inside hi
      have hk : pos i < a.cells.length := by omega
      have hv := h4 (pos i) _ (List.getElem?_eq_getElem hk)
      refine ⟨.val (conv a.cells[pos i]), c, ?_, ?_, h⟩
      · rw [e1, if_neg (by omega), List.getElem?_eq_getElem hk]; rfl
      · rw [if_pos hi, hv]
        exact ⟨_, rfl, conv_eq hconv (by simp only [Fits, hb] at hf; exact hf hi)⟩
    · have := toSize_outside h3 hi
      refine ⟨.exc .regIndex, c, ?_, ?_, h⟩
      · rw [if_pos this]; rfl
      · rw [if_neg hi]

include hconv in
theorem good_regReadAll {n : Nat} (hf : Fits A.gt S (.regReadAll n)) : Good conv A c S (.regReadAll n) := by
  have hr := h.regs n
  have hq : ∀ x, c.regs n = x → c.regs.readAll n = match x with | none => [] | some a => a.cells := by
    rintro _ rfl; rfl
  simp only [Good, Ctx.exec, Ctx.regReadAll, Says, next]
  cases hc : c.regs n with
  | none =>
    rw [hq _ hc]
    rw [hc] at hr
    rw [hr.none_left]
    exact ⟨_, c, rfl, rfl, h⟩
  | some a =>
    rw [hc] at hr
    obtain ⟨b, hb, h1, h2, h3, h4⟩ := hr.some_left
    rw [hb]
    simp only [Fits, hb] at hf
    obtain ⟨f1, f2⟩ := hf
    rw [hq _ hc]
    refine ⟨.vals (a.cells.map conv), c, ?_, ⟨_, rfl, ?_⟩, h⟩
    · rw [if_neg]
      intro he
      rw [List.isEmpty_iff] at he
      have he : a.cells = [] := he
      rw [he] at h2
      simp at h2
      omega
    · rw [List.map_map]
      apply List.ext_getElem
      · simp [h2]
      · intro k k1 k2
        simp only [List.length_map, List.length_range] at k1 k2
        simp only [List.getElem_map, List.getElem_range, Function.comp_apply]
        rw [h4 k _ (List.getElem?_eq_getElem k1)]
        exact conv_eq hconv (f2 k k2)

theorem good_regWrite {n : Nat} {i : Int32} {v : Int64} : Good conv A c S (.regWrite n i v) := by
  have hr := h.regs n
  simp only [Good, Ctx.exec, Ctx.regWrite, Reg.Ctx.write, Says, next]
  cases hc : c.regs n with
  | none =>
    rw [hc] at hr
    rw [hr.none_left]
    exact ⟨_, c, rfl, rfl, h⟩
  | some a =>
    rw [hc] at hr
    obtain ⟨b, hb, hr⟩ := hr.some_left
    rw [hb]
    simp only [hr.2.1]
    by_cases hi : Inside i b.size
    · obtain ⟨e1, e2⟩ := toSize_inside hi
      obtain ⟨a', ea, ra⟩ := hr.set e2 v.toInt
      refine ⟨.done, { c with regs := c.regs.put n a' }, ?_, ?_, ?_⟩
      · rw [e1, if_neg (by omega), ea]; rfl
      · rw [if_pos hi]
      · rw [if_pos hi]; exact h.setRegs ra
    · have := toSize_outside hr.2.2.1 hi
      refine ⟨.exc .regIndex, c, ?_, ?_, ?_⟩
      · rw [if_pos this]; rfl
      · rw [if_neg hi]
      · rw [if_neg hi]; exact h

theorem good_regWriteRange {n : Nat} {i j : Int32} {v : Int64} : Good conv A c S (.regWriteRange n i j v) := by
  have hr := h.regs n
  simp only [Good, Ctx.exec, Ctx.regWriteRange, Reg.Ctx.writeRange, Says, next]
  cases hc : c.regs n with
  | none =>
    rw [hc] at hr
    rw [hr.none_left]
    exact ⟨_, c, rfl, rfl, h⟩
  | some a =>
    rw [hc] at hr
    obtain ⟨b, hb, hr⟩ := hr.some_left
    rw [hb]
    simp only [hr.2.1]
    by_cases hi : Range i j b.size
    · obtain ⟨e1, e2, e3, e4⟩ := range_pos hi
      obtain ⟨a', ea, ra⟩ := hr.fill (v := v.toInt) (pos j - pos i) (lo := pos i) (by omega)
      rw [show pos i + (pos j - pos i) = pos j by omega] at ra
      refine ⟨.done, { c with regs := c.regs.put n a' }, ?_, ?_, ?_⟩
      · rw [if_neg ((range_iff hr.2.2.1).1 hi), e1, e2, ea]; rfl
      · rw [if_pos hi]
      · rw [if_pos hi]; exact h.setRegs ra
    · refine ⟨.exc .regIndex, c, ?_, ?_, ?_⟩
      · rw [if_pos (Classical.byContradiction fun hn => hi ((range_iff hr.2.2.1).2 hn))]; rfl
      · rw [if_neg hi]
      · rw [if_neg hi]; exact h

theorem good_regReset {n : Nat} : Good conv A c S (.regReset n) := by
  have hr := h.regs n
  simp only [Good, Ctx.exec, Ctx.regReset, Reg.Ctx.reset, Says, next]
  cases hc : c.regs n with
  | none =>
    rw [hc] at hr
    rw [hr.none_left]
    exact ⟨_, c, rfl, rfl, h⟩
  | some a =>
    rw [hc] at hr
    obtain ⟨b, hb, hr⟩ := hr.some_left
    rw [hb]
    exact ⟨_, _, rfl, rfl, h.setRegs hr.reset⟩

theorem good_cntRead {n : Nat} {i : Int32} : Good conv A c S (.cntRead n i) := by
  have hr := h.cnts n
  simp only [Good, Ctx.exec, Ctx.cntRead, Says, next]
  cases hc : c.cnts n with
  | none =>
    rw [hc] at hr
    rw [hr.none_left]
    exact ⟨_, c, rfl, rfl, h⟩
  | some a =>
    rw [hc] at hr
    obtain ⟨b, hb, h1, h2, h3⟩ := hr.some_left
    rw [hb]
    simp only [h1]
    by_cases hi : Inside i b.size
    · obtain ⟨e1, e2⟩ := toSize_inside hi
      have hk : pos i < a.length := by omega
      obtain ⟨w1, w2⟩ := h3 (pos i) _ (List.getElem?_eq_getElem hk)
      refine ⟨.cnt (Int64.ofInt a[pos i].bytes) (Int64.ofInt a[pos i].packets), c, ?_, ?_, h⟩
      · rw [e1, if_neg (by omega), List.getElem?_eq_getElem hk, Option.map_some]
      · rw [if_pos hi]
        exact ⟨_, _, rfl, word_cong w1, word_cong w2⟩
    · have := toSize_outside h2 hi
      refine ⟨.exc .cntIndex, c, ?_, ?_, h⟩
      · rw [if_pos this]
      · rw [if_neg hi]

theorem good_cntWrite {n : Nat} {i : Int32} {x y : Int64} : Good conv A c S (.cntWrite n i x y) := by
  have hr := h.cnts n
  simp only [Good, Ctx.exec, Ctx.cntWrite, Says, next]
  cases hc : c.cnts n with
  | none =>
    rw [hc] at hr
    rw [hr.none_left]
    exact ⟨_, c, rfl, rfl, h⟩
  | some a =>
    rw [hc] at hr
    obtain ⟨b, hb, hr⟩ := hr.some_left
    rw [hb]
    simp only [hr.1]
    by_cases hi : Inside i b.size
    · obtain ⟨e1, e2⟩ := toSize_inside hi
      have hk : pos i < a.length := by rw [hr.1]; exact e2
      refine ⟨.done, { c with cnts := put c.cnts n (a.set (pos i)
        (cntOp a[pos i] (.set (pos i) (toU64 x) (toU64 y)))) }, ?_, ?_, ?_⟩
      · rw [e1, if_neg (by omega), List.getElem?_eq_getElem hk, Option.map_some]
      · rw [if_pos hi]
      · rw [if_pos hi]
        exact h.setCnts (hr.set (word_u64 x) (word_u64 y))
    · have := toSize_outside hr.2.1 hi
      refine ⟨.exc .cntIndex, c, ?_, ?_, ?_⟩
      · rw [if_pos this]
      · rw [if_neg hi]
      · rw [if_neg hi]; exact h

theorem good_cntReset {n : Nat} : Good conv A c S (.cntReset n) := by
  have hr := h.cnts n
  simp only [Good, Ctx.exec, Ctx.cntReset, Says, next]
  cases hc : c.cnts n with
  | none =>
    rw [hc] at hr
    rw [hr.none_left]
    exact ⟨_, c, rfl, rfl, h⟩
  | some a =>
    rw [hc] at hr
    obtain ⟨b, hb, hr⟩ := hr.some_left
    rw [hb]
    exact ⟨_, _, rfl, rfl, h.setCnts hr.reset⟩

theorem good_mtrGet {n : Nat} {i : Int32} : Good conv A c S (.mtrGet n i) := by
  have hr := h.mtrs n
  simp only [Good, Ctx.exec, Ctx.mtrGet, Says, next]
  cases hc : c.mtrs n with
  | none =>
    rw [hc] at hr
    rw [hr.none_left]
    exact ⟨_, c, rfl, rfl, h⟩
  | some a =>
    rw [hc] at hr
    obtain ⟨b, hb, h1, h2, h3⟩ := hr.some_left
    rw [hb]
    simp only [h1]
    by_cases hi : Inside i b.size
    · obtain ⟨e1, e2⟩ := toSize_inside hi
      have hk : pos i < a.length := by omega
      obtain ⟨w1, w2⟩ := h3 (pos i) _ (List.getElem?_eq_getElem hk)
      refine ⟨.rates (b.cfg (pos i)), c, ?_, ?_, h⟩
      · rw [e1, if_neg (by omega), List.getElem?_eq_getElem hk, Option.map_some, w2, ofConfigs_toConfigs]
      · rw [if_pos hi]
    · have := toSize_outside h2 hi
      refine ⟨.exc .mtrIndex, c, ?_, ?_, h⟩
      · rw [if_pos this]
      · rw [if_neg hi]

theorem good_mtrSet {n : Nat} {i : Int32} {rs : List (R × Int32)} (hf : Fits A.gt S (.mtrSet n i rs)) :
    Good conv A c S (.mtrSet n i rs) := by
  have hr := h.mtrs n
  simp only [Good, Ctx.exec, Ctx.mtrSet, Says, next]
  cases hc : c.mtrs n with
  | none =>
    rw [hc] at hr
    rw [hr.none_left]
    exact ⟨_, c, rfl, rfl, h⟩
  | some a =>
    rw [hc] at hr
    obtain ⟨b, hb, hr⟩ := hr.some_left
    rw [hb]
    simp only [hr.1]
    by_cases hi : Inside i b.size
    · obtain ⟨e1, e2⟩ := toSize_inside hi
      have hk : pos i < a.length := by rw [hr.1]; exact e2
      have hg := List.getElem?_eq_getElem hk
      obtain ⟨w1, w2⟩ := hr.2.2 (pos i) _ hg
      by_cases hl : rs.length = b.nrates
      · simp only [Fits, hb] at hf
        have ha := hf hi hl
        obtain ⟨m', m1, m2, m3⟩ := setRates_good (A := A) w1 hl ha.2.2
        refine ⟨.done, { c with mtrs := put c.mtrs n (a.set (pos i) m') }, ?_, ?_, ?_⟩
        · rw [e1, if_neg (by omega), hg]
          simp only [Option.bind_eq_bind, Option.bind_some, m1, Option.pure_def]
          rfl
        · rw [if_pos hi, if_pos ha]
        · rw [if_pos ⟨hi, ha⟩]
          exact h.setMtrs (hr.set m2 m3)
      · refine ⟨.exc .badRates, c, ?_, ?_, ?_⟩
        · rw [e1, if_neg (by omega), hg]
          simp only [Option.bind_eq_bind, Option.bind_some, setRates_bad (A := A) w1 hl, Option.pure_def]
          rw [show a.set (pos i) a[pos i] = a from List.set_getElem_self hk, put_same hc]
          rfl
        · rw [if_pos hi, if_neg (fun x => hl x.1)]
          simp [whyNot, hl]
        · rw [if_neg (fun x => hl x.2.1)]; exact h
    · have := toSize_outside hr.2.1 hi
      refine ⟨.exc .mtrIndex, c, ?_, ?_, ?_⟩
      · rw [if_pos this]
      · rw [if_neg hi]
      · rw [if_neg (fun x => hi x.1)]; exact h

theorem good_mtrSetAll {n : Nat} {rs : List (R × Int32)} (hf : Fits A.gt S (.mtrSetAll n rs)) :
    Good conv A c S (.mtrSetAll n rs) := by
  have hr := h.mtrs n
  simp only [Good, Ctx.exec, Ctx.mtrSetAll, Says, next]
  cases hc : c.mtrs n with
  | none =>
    rw [hc] at hr
    rw [hr.none_left]
    exact ⟨_, c, rfl, rfl, h⟩
  | some a =>
    rw [hc] at hr
    obtain ⟨b, hb, hr⟩ := hr.some_left
    rw [hb]
    simp only []
    simp only [Fits, hb] at hf
    obtain ⟨f1, f2⟩ := hf
    have hall : ∀ m ∈ a, m.rates.length = b.nrates := by
      intro m hm
      obtain ⟨k, hk⟩ := List.getElem?_of_mem hm
      exact (hr.2.2 k m hk).1
    by_cases hl : rs.length = b.nrates
    · have ha := f2 hl
      obtain ⟨a', m1, m2, m3⟩ := arraySet_good (A := A) hl ha.2.2 a hall
      refine ⟨.done, { c with mtrs := put c.mtrs n a' }, ?_, ?_, ?_⟩
      · simp only [Option.bind_eq_bind, Option.bind_some, m1, Option.pure_def]
        rfl
      · rw [if_pos ha]
      · rw [if_pos ha]
        exact h.setMtrs ⟨by rw [m2]; exact hr.1, hr.2.1, fun k m hm => m3 m (List.mem_of_getElem? hm)⟩
    · refine ⟨.exc .badRates, c, ?_, ?_, ?_⟩
      · cases a with
        | nil => simp [← hr.1] at f1
        | cons m a =>
          simp only [Meter.arraySetRates, setRates_bad (A := A) (hall m (by simp)) hl, Option.bind_eq_bind, Option.bind_some,
            Option.pure_def]
          simp only [reduceCtorEq, if_false, Option.bind_some, put_same hc]
          rfl
      · rw [if_neg (fun x : Accepts A.gt b rs => hl x.1)]
        simp [whyNot, hl]
      · rw [if_neg (fun x : Accepts A.gt b rs => hl x.1)]; exact h

theorem good_vsetAdd {n : Nat} {v : Bytes} (hf : Fits A.gt S (.vsetAdd n v)) : Good conv A c S (.vsetAdd n v) := by
  have hr := h.vsets n
  simp only [Good, Ctx.exec, Ctx.vsetOp, Says, next]
  cases hc : c.vsets n with
  | none =>
    rw [hc] at hr
    rw [hr.none_left]
    exact ⟨_, c, rfl, rfl, h⟩
  | some a =>
    rw [hc] at hr
    obtain ⟨b, hb, hr⟩ := hr.some_left
    rw [hb]
    simp only []
    simp only [Fits, hb] at hf
    have hv := hf
    obtain ⟨a', e1, e2⟩ := hr.add hv
    refine ⟨.done, { c with vsets := put c.vsets n a' }, by simp only [e1]; rfl, by rw [if_pos hv], ?_⟩
    rw [if_pos hv]
    exact h.setVsets e2

theorem good_vsetRemove {n : Nat} {v : Bytes} (hf : Fits A.gt S (.vsetRemove n v)) :
    Good conv A c S (.vsetRemove n v) := by
  have hr := h.vsets n
  simp only [Good, Ctx.exec, Ctx.vsetOp, Says, next]
  cases hc : c.vsets n with
  | none =>
    rw [hc] at hr
    rw [hr.none_left]
    exact ⟨_, c, rfl, rfl, h⟩
  | some a =>
    rw [hc] at hr
    obtain ⟨b, hb, hr⟩ := hr.some_left
    rw [hb]
    simp only []
    simp only [Fits, hb] at hf
    have hv := hf
    obtain ⟨a', e1, e2⟩ := hr.remove hv
    refine ⟨.done, { c with vsets := put c.vsets n a' }, by simp only [e1]; rfl, by rw [if_pos hv], ?_⟩
    rw [if_pos hv]
    exact h.setVsets e2

theorem good_vsetClear {n : Nat} : Good conv A c S (.vsetClear n) := by
  have hr := h.vsets n
  simp only [Good, Ctx.exec, Ctx.vsetOp, Says, next]
  cases hc : c.vsets n with
  | none =>
    rw [hc] at hr
    rw [hr.none_left]
    exact ⟨_, c, rfl, rfl, h⟩
  | some a =>
    rw [hc] at hr
    obtain ⟨b, hb, hr⟩ := hr.some_left
    rw [hb]
    obtain ⟨a', e1, e2⟩ := hr.clear
    exact ⟨.done, { c with vsets := put c.vsets n a' }, by simp only [e1]; rfl, rfl, h.setVsets e2⟩

theorem good_vsetGet {n : Nat} : Good conv A c S (.vsetGet n) := by
  have hr := h.vsets n
  simp only [Good, Ctx.exec, Ctx.vsetGet, Says, next]
  cases hc : c.vsets n with
  | none =>
    rw [hc] at hr
    rw [hr.none_left]
    exact ⟨_, c, rfl, rfl, h⟩
  | some a =>
    rw [hc] at hr
    obtain ⟨b, hb, hr⟩ := hr.some_left
    rw [hb]
    exact ⟨_, c, rfl, ⟨_, rfl, hr.2.2.2.1, hr.2.2.2.2.1⟩, h⟩

include hconv in
theorem good {r : Req R} (hf : Fits A.gt S r) : Good conv A c S r := by
  cases r with
  | regRead n i => exact good_regRead hconv h hf
  | regReadAll n => exact good_regReadAll hconv h hf
  | regWrite n i v => exact good_regWrite h
  | regWriteRange n i j v => exact good_regWriteRange h
  | regReset n => exact good_regReset h
  | cntRead n i => exact good_cntRead h
  | cntWrite n i b p => exact good_cntWrite h
  | cntReset n => exact good_cntReset h
  | mtrSet n i rs => exact good_mtrSet h hf
  | mtrSetAll n rs => exact good_mtrSetAll h hf
  | mtrGet n i => exact good_mtrGet h
  | vsetAdd n v => exact good_vsetAdd h hf
  | vsetRemove n v => exact good_vsetRemove h hf
  | vsetGet n => exact good_vsetGet h
  | vsetClear n => exact good_vsetClear h

/-! ## Packets and resets -/

theorem dp_rel {a : Dp} {c' : Ctx R} (e : c.dp A a = some c') : Rel c' (nextDp S a) := by
  cases a with
  | count n i len =>
    have hr := h.cnts n
    simp only [Ctx.dp, Option.bind_eq_bind, Option.bind_eq_some_iff, Option.pure_def, Option.some.injEq] at e
    obtain ⟨a, ha, k, hk, rfl⟩ := e
    rw [ha] at hr
    obtain ⟨b, hb, hr⟩ := hr.some_left
    obtain ⟨w1, w2⟩ := hr.2.2 i k hk
    simp only [nextDp, hb]
    exact h.setCnts (hr.set (word_add w1 len) (word_add w2 1))
  | regWrite n i v =>
    have hr := h.regs n
    simp only [Ctx.dp, Option.bind_eq_bind, Option.bind_eq_some_iff, Option.pure_def, Option.some.injEq] at e
    obtain ⟨a, ha, a', hk, rfl⟩ := e
    rw [ha] at hr
    obtain ⟨b, hb, hr⟩ := hr.some_left
    have hi : i < b.size := by
      rw [← hr.2.1]
      simp only [Reg.Arr.set] at hk
      split at hk
      · assumption
      · cases hk
    obtain ⟨a2, e1, e2⟩ := hr.set hi v
    rw [hk] at e1
    cases e1
    simp only [nextDp, hb]
    exact h.setRegs e2
  | meter n i now len pre =>
    have hr := h.mtrs n
    simp only [Ctx.dp, Option.bind_eq_bind, Option.bind_eq_some_iff, Option.pure_def, Option.some.injEq] at e
    obtain ⟨a, ha, ⟨_, a'⟩, hk, rfl⟩ := e
    rw [ha] at hr
    obtain ⟨b, hb, hr⟩ := hr.some_left
    simp only [Meter.arrayExecute, Option.bind_eq_bind, Option.bind_eq_some_iff, Option.pure_def, Option.some.injEq,
      Prod.mk.injEq] at hk
    obtain ⟨m, hm, ⟨_, m'⟩, he, _, rfl⟩ := hk
    obtain ⟨k1, k2⟩ := execute_keeps he
    have := h.setMtrs (n := n) (hr.same hm k1 k2)
    have hS : ({ S with mtrs := upd S.mtrs n b } : St R) = S := by
      have : upd S.mtrs n b = S.mtrs := put_same (f := S.mtrs) hb
      rw [this]
    rw [hS] at this
    exact this

theorem reset_rel (hv : ∀ n a, S.vsets n = some a → ∀ v, ¬ a.mem v) : Rel c.resetState (reset S) where
  regs n := (h.regs n).map fun _ _ hr => hr.reset
  cnts n := (h.cnts n).map fun _ _ hr => hr.reset
  mtrs n := (h.mtrs n).map fun _ _ hr => hr.reset
  vsets n := by
    have hr := h.vsets n
    simp only [Ctx.resetState, reset]
    cases hc : c.vsets n with
    | none => rw [hc] at hr; rw [hr.none_left]; trivial
    | some a =>
      rw [hc] at hr
      obtain ⟨b, hb, hr⟩ := hr.some_left
      rw [hb]
      have := hv n b hb
      exact ⟨hr.1, hr.2.1, hr.2.2.1, hr.2.2.2.1, fun v => by rw [hr.2.2.2.2.1]; simp [this v], hr.2.2.2.2.2⟩

end

/-! ## Histories -/

theorem forall2_set {α β : Type} {r : α → β → Prop} {l : List α} {m : List β} (h : List.Forall₂ r l m) {k : Nat}
    {a : α} {f : β → β} (ha : ∀ b, m[k]? = some b → r a (f b)) : List.Forall₂ r (l.set k a) (m.modify k f) := by
  induction h generalizing k with
  | nil => simp
  | cons h t ih =>
    cases k with
    | zero => exact .cons (ha _ rfl) t
    | succ k => exact .cons h (ih fun b hb => ha b hb)

theorem forall2_get {α β : Type} {r : α → β → Prop} {l : List α} {m : List β} (h : List.Forall₂ r l m) {k : Nat}
    {a : α} (ha : l[k]? = some a) : ∃ b, m[k]? = some b ∧ r a b := by
  induction h generalizing k with
  | nil => simp at ha
  | cons h t ih =>
    cases k with
    | zero => simp only [List.getElem?_cons_zero, Option.some.injEq] at ha; exact ⟨_, rfl, ha ▸ h⟩
    | succ k => exact ih ha

theorem step_ok {conv : Int → Int64} (hconv : ∀ x : Int64, conv x.toInt = x) {A : Meter.RateArith R} {s : List (Ctx R)}
    {S : List (St R)} (h : List.Forall₂ Rel s S) (hl : S.length ≤ 2 ^ 31) {e : Ev R} (hf : FitsEv A.gt S e) :
    match step conv A s e with
    | .crash => False
    | .undefined => True
    | .ok (rep, s') => SaysEv A.gt S e rep ∧ List.Forall₂ Rel s' (nextEv A.gt S e) := by
  cases e with
  | req cxt r =>
    simp only [step]
    by_cases hi : Inside cxt S.length
    · obtain ⟨e1, e2⟩ := toCxt_inside hi
      have hx : cxtOf S cxt = some (pos cxt) := by simp only [cxtOf]; rw [if_pos hi]
      have hlen := h.length_eq
      have hk : pos cxt < s.length := by omega
      rw [e1, List.getElem?_eq_getElem hk]
      obtain ⟨T, hT, hr⟩ := forall2_get h (List.getElem?_eq_getElem hk)
      simp only [FitsEv, hx, Option.bind_some, hT] at hf
      obtain ⟨rep, c', g1, g2, g3⟩ := good hconv hr hf
      simp only [g1, SaysEv, nextEv, hx]
      refine ⟨⟨T, rep, hT, rfl, g2⟩, forall2_set h fun b hb => ?_⟩
      rw [hT] at hb
      cases hb
      exact g3
    · have hx : cxtOf S cxt = none := by simp only [cxtOf]; rw [if_neg hi]
      have := toCxt_outside hl hi
      have hlen := h.length_eq
      rw [List.getElem?_eq_none (by omega)]
      simp only [SaysEv, nextEv, hx, true_and]
      exact h
  | resetState =>
    simp only [step, SaysEv, nextEv, true_and]
    simp only [FitsEv] at hf
    clear hl
    induction h with
    | nil => exact .nil
    | cons h t ih =>
      exact .cons (reset_rel h (hf _ (by simp))) (ih fun T hT => hf T (by simp [hT]))
  | pkt k a =>
    simp only [step]
    cases hc : s[k]? with
    | none => trivial
    | some c =>
      obtain ⟨T, hT, hr⟩ := forall2_get h hc
      simp only []
      cases hd : c.dp A a with
      | none => trivial
      | some c' =>
        refine ⟨rfl, forall2_set h fun b hb => ?_⟩
        rw [hT] at hb
        cases hb
        exact dp_rel hr hd

theorem nextEv_length (gt : R → R → Bool) (S : List (St R)) (e : Ev R) : (nextEv gt S e).length = S.length := by
  cases e with
  | req cxt r => simp only [nextEv]; split <;> simp
  | resetState => simp [nextEv]
  | pkt k a => simp [nextEv]

theorem run_ok {conv : Int → Int64} (hconv : ∀ x : Int64, conv x.toInt = x) {A : Meter.RateArith R} :
    ∀ (es : List (Ev R)) {s : List (Ctx R)} {S : List (St R)}, List.Forall₂ Rel s S → S.length ≤ 2 ^ 31 →
    AllFit A.gt S es →
    match run conv A s es with
    | .crash => False
    | .undefined => True
    | .ok (reps, _) => Tells A.gt S es reps
  | [], s, S, _, _, _ => rfl
  | e :: es, s, S, h, hl, hf => by
    have h1 := step_ok hconv h hl hf.1
    simp only [run]
    revert h1
    cases step conv A s e with
    | crash => exact fun x => x
    | undefined => exact fun x => x
    | ok x =>
      obtain ⟨rep, s'⟩ := x
      rintro ⟨g1, g2⟩
      have h2 := run_ok hconv es g2 (by rw [nextEv_length]; exact hl) hf.2
      simp only []
      revert h2
      cases run conv A s' es with
      | crash => exact fun x => x
      | undefined => exact fun x => x
      | ok y => exact fun h2 => ⟨rep, y.1, rfl, g1, h2⟩

/-- Declarations for which the property is proved: arrays fit into memory, and the select cases on a value set are well
formed (see C39). -/
structure WF (d : Decl) : Prop where
  regs : ∀ n x, d.regs n = some x → x.1 < 2 ^ 63
  cnts : ∀ n x, d.cnts n = some x → x < 2 ^ 63
  mtrs : ∀ n x, d.mtrs n = some x → x.2.2 < 2 ^ 63
  vsets : ∀ n x, d.vsets n = some x → ∀ p ∈ x.2, VSet.CaseOk x.1 p.1 p.2

theorem init_rel {d : Decl} (hd : WF d) (zero : R) (now : Nat) : Rel (d.init zero now) (start d) where
  regs n := by
    simp only [Decl.init, start]
    cases hx : d.regs n with
    | none => trivial
    | some x =>
      refine ⟨rfl, by simp [Reg.Arr.mk'], hd.regs n x hx, fun k v hv => ?_⟩
      simp only [Reg.Arr.mk', List.getElem?_replicate] at hv
      split at hv
      · cases hv; rfl
      · cases hv
  cnts n := by
    simp only [Decl.init, start]
    cases hx : d.cnts n with
    | none => trivial
    | some x =>
      refine ⟨by simp, hd.cnts n x hx, fun k v hv => ?_⟩
      simp only [List.getElem?_replicate] at hv
      split at hv
      · cases hv; simp [Word]
      · cases hv
  mtrs n := by
    simp only [Decl.init, start]
    cases hx : d.mtrs n with
    | none => trivial
    | some x =>
      refine ⟨by simp, hd.mtrs n x hx, fun k v hv => ?_⟩
      simp only [List.getElem?_replicate] at hv
      split at hv
      · cases hv; simp [Meter.fresh, Meter.getRates, toConfigs]
      · cases hv
  vsets n := by
    simp only [Decl.init, start]
    cases hx : d.vsets n with
    | none => trivial
    | some x =>
      refine ⟨rfl, rfl, rfl, by simp [VSet.VSet.mk'], by simp [VSet.VSet.mk'], fun s hs => ?_⟩
      simp only [VSet.VSet.mk', List.mem_map] at hs
      obtain ⟨p, hp, rfl⟩ := hs
      exact ⟨p.1, rfl, hd.vsets n x hx p hp⟩

end Bm.ThriftExt
