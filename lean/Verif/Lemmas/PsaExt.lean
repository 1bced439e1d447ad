import Verif.Spec.PsaExt
import Verif.Lemmas.ThriftExt
import Verif.Lemmas.Meter

/-!
# Lemmas about the externs of psa_switch
-/

namespace Bm.PsaExt

open Bm.PsaExt.Spec
open Bm.Spec.Meter (Level Seen Gets avail)
open Bm.Meter (RateArith Ordered Track latest levels)
open Bm.ThriftExt (Reply toSize toU64 toConfigs ofConfigs cntOp toSize_inside toSize_outside ofConfigs_toConfigs)
open Bm.ThriftExt.Spec (Inside pos Bursts ascending put)

variable {R : Type} {A : RateArith R}

/-- A counter holds the integer modulo 2^64. -/
def CRel (k : Counters.Counter) (b p : Int) : Prop := (k.bytes : Int) = b % 2 ^ 64 ∧ (k.packets : Int) = p % 2 ^ 64

/-- A meter is as the specification says, `t` microseconds after the start. -/
def MRel (A : RateArith R) (t0 T t n : Nat) (q : Bool) (x : Meter.Meter R) (m : Option (MtrS R)) : Prop :=
  x.packets = q ∧ x.timeInit = t0 ∧ x.rates.length = n ∧
  match m with
  | none => x.configured = false
  | some y => x.configured = true ∧ Ordered x.rates ∧ (∀ r ∈ x.rates, Track A y.seen r) ∧ Meter.getRates x = toConfigs y.rates ∧
      Bursts y.rates ∧ latest y.seen ≤ t ∧ ∀ r ∈ x.rates, r.burst + A.acc r.infoRate T < 2 ^ 64

/-- An instance is as the specification says. -/
def IRel (A : RateArith R) (t0 T t : Nat) : Inst R → Obj R → Prop
  | .counter cs, .counter size b p => cs.length = size ∧ size < 2 ^ 63 ∧ ∀ i k, cs[i]? = some k → CRel k (b i) (p i)
  | .meter ms, .meter size n q m => ms.length = size ∧ size < 2 ^ 63 ∧ n ≤ 2 ∧ ∀ i x, ms[i]? = some x → MRel A t0 T t n q x (m i)
  | .random lo hi, .random lo' hi' => lo' = lo ∧ hi' = hi ∧ lo < hi
  | .other, .other => True
  | _, _ => False

/-- All instances are as the specification says. -/
structure Inv (A : RateArith R) (ds : List Decl) (t0 T t : Nat) (s : List (Inst R)) (st : St R) : Prop where
  len : s.length = ds.length
  rel : ∀ n i, s[n]? = some i → ∃ o, st n = some o ∧ IRel A t0 T t i o
  gone : ∀ n, s[n]? = none → st n = none
  kind : ∀ n, (st n).map Obj.kind = (ds[n]?).map Decl.kind

variable {ds : List Decl} {t0 T t t' : Nat} {s : List (Inst R)} {st : St R}

theorem MRel.mono {n : Nat} {q : Bool} {x : Meter.Meter R} {m : Option (MtrS R)} (h : MRel A t0 T t n q x m) (ht : t ≤ t') :
    MRel A t0 T t' n q x m := by
  obtain ⟨h1, h2, h3, h4⟩ := h
  refine ⟨h1, h2, h3, ?_⟩
  cases m with
  | none => exact h4
  | some y =>
    obtain ⟨a, b, c, d, e, f, g⟩ := h4
    exact ⟨a, b, c, d, e, Nat.le_trans f ht, g⟩

theorem IRel.mono {i : Inst R} {o : Obj R} (h : IRel A t0 T t i o) (ht : t ≤ t') : IRel A t0 T t' i o := by
  cases i <;> cases o <;> try exact h
  obtain ⟨a, b, c, d⟩ := h
  exact ⟨a, b, c, fun j x hx => (d j x hx).mono ht⟩

theorem Inv.mono (h : Inv A ds t0 T t s st) (ht : t ≤ t') : Inv A ds t0 T t' s st :=
  ⟨h.len, fun n i hi => by obtain ⟨o, a, b⟩ := h.rel n i hi; exact ⟨o, a, b.mono ht⟩, h.gone, h.kind⟩

/-- One instance changes. -/
theorem Inv.set (h : Inv A ds t0 T t s st) {n : Nat} {o o' : Obj R} {i' : Inst R} (ho : st n = some o) (hk : o'.kind = o.kind)
    (hr : IRel A t0 T t i' o') : Inv A ds t0 T t (s.set n i') (upd st n o') := by
  refine ⟨by rw [List.length_set]; exact h.len, fun m i hi => ?_, fun m hm => ?_, fun m => ?_⟩
  · by_cases e : m = n
    · subst e
      rw [List.getElem?_set_self'] at hi
      cases hs : s[m]? with
      | none => rw [hs] at hi; exact absurd hi (by simp)
      | some j =>
        rw [hs] at hi
        cases hi
        exact ⟨o', by simp [upd], hr⟩
    · rw [List.getElem?_set_ne (Ne.symm e)] at hi
      obtain ⟨o2, a, b⟩ := h.rel m i hi
      exact ⟨o2, by simp [upd, e, a], b⟩
  · by_cases e : m = n
    · subst e
      rw [List.getElem?_set_self'] at hm
      cases hs : s[m]? with
      | none => exact absurd (h.gone m hs) (by rw [ho]; simp)
      | some j => rw [hs] at hm; exact absurd hm (by simp)
    · rw [List.getElem?_set_ne (Ne.symm e)] at hm
      simp [upd, e, h.gone m hm]
  · by_cases e : m = n
    · subst e
      rw [← h.kind m, ho]
      simp [upd, hk]
    · simp only [upd, if_neg e]
      exact h.kind m

/-- A declared counter is a counter. -/
theorem Inv.counter (h : Inv A ds t0 T t s st) {n : Nat} (hn : Is ds n .counter) :
    ∃ cs b p, s[n]? = some (.counter cs) ∧ st n = some (.counter cs.length b p) ∧ cs.length < 2 ^ 63 ∧
      ∀ i k, cs[i]? = some k → CRel k (b i) (p i) := by
  have hk := h.kind n
  rw [hn] at hk
  cases hs : s[n]? with
  | none => rw [h.gone n hs] at hk; exact absurd hk (by simp)
  | some i =>
    obtain ⟨o, ho, hr⟩ := h.rel n i hs
    rw [ho] at hk
    cases o with
    | counter size b p =>
      cases i with
      | counter cs => obtain ⟨rfl, a, c⟩ := hr; exact ⟨cs, b, p, rfl, ho, a, c⟩
      | meter _ => exact absurd hr (by simp [IRel])
      | random _ _ => exact absurd hr (by simp [IRel])
      | other => exact absurd hr (by simp [IRel])
    | meter _ _ _ _ => exact absurd hk (by simp [Obj.kind])
    | random _ _ => exact absurd hk (by simp [Obj.kind])
    | other => exact absurd hk (by simp [Obj.kind])

/-- A declared meter is a meter. -/
theorem Inv.meter (h : Inv A ds t0 T t s st) {n : Nat} (hn : Is ds n .meter) :
    ∃ ms k q m, s[n]? = some (.meter ms) ∧ st n = some (.meter ms.length k q m) ∧ ms.length < 2 ^ 63 ∧ k ≤ 2 ∧
      ∀ i x, ms[i]? = some x → MRel A t0 T t k q x (m i) := by
  have hk := h.kind n
  rw [hn] at hk
  cases hs : s[n]? with
  | none => rw [h.gone n hs] at hk; exact absurd hk (by simp)
  | some i =>
    obtain ⟨o, ho, hr⟩ := h.rel n i hs
    rw [ho] at hk
    cases o with
    | meter size k q m =>
      cases i with
      | meter ms => obtain ⟨rfl, a, c, d⟩ := hr; exact ⟨ms, k, q, m, rfl, ho, a, c, d⟩
      | counter _ => exact absurd hr (by simp [IRel])
      | random _ _ => exact absurd hr (by simp [IRel])
      | other => exact absurd hr (by simp [IRel])
    | counter _ _ _ => exact absurd hk (by simp [Obj.kind])
    | random _ _ => exact absurd hk (by simp [Obj.kind])
    | other => exact absurd hk (by simp [Obj.kind])

/-- A declared range is a range. -/
theorem Inv.random (h : Inv A ds t0 T t s st) {n : Nat} (hn : Is ds n .random) :
    ∃ lo hi, s[n]? = some (.random lo hi) ∧ st n = some (.random lo hi) ∧ lo < hi := by
  have hk := h.kind n
  rw [hn] at hk
  cases hs : s[n]? with
  | none => rw [h.gone n hs] at hk; exact absurd hk (by simp)
  | some i =>
    obtain ⟨o, ho, hr⟩ := h.rel n i hs
    rw [ho] at hk
    cases o with
    | random lo' hi' =>
      cases i with
      | random lo hi => obtain ⟨rfl, rfl, a⟩ := hr; exact ⟨_, _, rfl, ho, a⟩
      | counter _ => exact absurd hr (by simp [IRel])
      | meter _ => exact absurd hr (by simp [IRel])
      | other => exact absurd hr (by simp [IRel])
    | counter _ _ _ => exact absurd hk (by simp [Obj.kind])
    | meter _ _ _ _ => exact absurd hk (by simp [Obj.kind])
    | other => exact absurd hk (by simp [Obj.kind])

/-- A name of nothing. -/
theorem Inv.absent (h : Inv A ds t0 T t s st) {n : Nat} (hn : ds[n]? = none) : s[n]? = none ∧ st n = none := by
  have : s[n]? = none := by
    rw [List.getElem?_eq_none_iff] at hn ⊢
    rw [h.len]; exact hn
  exact ⟨this, h.gone n this⟩

/-! ## Counters -/

theorem CRel.inc {k : Counters.Counter} {b p : Int} (h : CRel k b p) (i len : Nat) :
    CRel (cntOp k (.inc i len)) (b + len) (p + 1) := by
  obtain ⟨h1, h2⟩ := h
  simp only [cntOp, Counters.Op.steps, List.foldl, Counters.Counter.step, CRel]
  omega

theorem toInt_mod (x : Int64) : ((toU64 x : Nat) : Int) = x.toInt % 2 ^ 64 := by
  simp only [toU64]
  omega

theorem CRel.write (k : Counters.Counter) (i : Nat) (x y : Int64) :
    CRel (cntOp k (.set i (toU64 x) (toU64 y))) x.toInt y.toInt := by
  simp only [cntOp, Counters.Op.steps, List.foldl, Counters.Counter.step, CRel]
  exact ⟨toInt_mod x, toInt_mod y⟩

theorem CRel.zero (k : Counters.Counter) : CRel (cntOp k (.set 0 0 0)) 0 0 := by
  simp [cntOp, Counters.Op.steps, Counters.Counter.step, CRel]

theorem ofInt_mod (x : Int) (n : Nat) (h : (n : Int) = x % 2 ^ 64) : Int64.ofInt n = Int64.ofInt x := by
  apply Int64.toInt.inj
  rw [Int64.toInt_ofInt, Int64.toInt_ofInt, h, show Int64.size = 2 ^ 64 from rfl, Int.bmod_def, Int.bmod_def]
  omega

/-- Changing one counter. -/
theorem counters_set {cs : List Counters.Counter} {b p : Nat → Int} (h : ∀ i k, cs[i]? = some k → CRel k (b i) (p i)) (j : Nat)
    {k' : Counters.Counter} {x y : Int} (hk : CRel k' x y) :
    ∀ i k, (cs.set j k')[i]? = some k → CRel k (put b j x i) (put p j y i) := by
  intro i k hi
  by_cases e : i = j
  · subst e
    rw [List.getElem?_set_self'] at hi
    cases hs : cs[i]? with
    | none => rw [hs] at hi; exact absurd hi (by simp)
    | some _ => rw [hs] at hi; cases hi; simp only [put, if_true]; exact hk
  · rw [List.getElem?_set_ne (Ne.symm e)] at hi
    simp only [put, if_neg e]
    exact h i k hi

/-! ## Meters -/

theorem levels_getRates {x : Meter.Meter R} (hc : x.configured = true) :
    levels A x.rates = (Meter.getRates x).map fun c => ⟨c.burst, A.acc c.infoRate⟩ := by
  simp only [levels, Meter.getRates, hc, Bool.not_true, Bool.false_eq_true, if_false, List.map_reverse, List.map_map]
  rfl

theorem level_toConfigs {rs : List (R × Int32)} (h : Bursts rs) :
    (toConfigs rs).map (fun c => (⟨c.burst, A.acc c.infoRate⟩ : Level)) = rs.map (level A.acc) := by
  rw [toConfigs, List.map_map]
  refine List.map_congr_left fun p hp => ?_
  have h1 := h p hp
  have h2 := p.2.toInt_lt
  simp only [Function.comp, level, toSize]
  congr 1
  generalize p.2.toInt = z at *
  omega

theorem psaColor_eq {l : Nat} (h : l ≤ 2) : psaColor l = (Color.ofLevel l).number := by
  match l, h with
  | 0, _ => rfl
  | 1, _ => rfl
  | 2, _ => rfl

/-- A packet at a meter. -/
theorem meter_exec (hmono : ∀ r, Monotone (A.acc r)) {now k len : Nat} {q : Bool} {x : Meter.Meter R} {m : Option (MtrS R)}
    (h : MRel A t0 T ((now - t0) / 1000) k q x m) (hk : k ≤ 2) (h0 : t0 ≤ now) (hT : (now - t0) / 1000 ≤ T) :
    ∃ c x' m', Meter.execute A x now len 0 = some (c, x') ∧
      Meters A.acc ((now - t0) / 1000) (if q then 1 else len) (psaColor c) m m' ∧ MRel A t0 T ((now - t0) / 1000) k q x' m' := by
  have h' := h
  obtain ⟨h1, h2, h3, h4⟩ := h
  cases m with
  | none =>
    exact ⟨0, x, none, by simp [Meter.execute, show x.configured = false from h4], ⟨rfl, rfl⟩, h'⟩
  | some y =>
    obtain ⟨a, b, c, d, e, f, g⟩ := h4
    obtain ⟨v, rs', e1, e2, e3, e4, e5, e6, e7⟩ := Meter.execRates_spec hmono ((now - t0) / 1000) (if q then 1 else len) y.seen f
      x.rates b c (fun r hr => by
        have := g r hr
        have := hmono r.infoRate hT
        omega)
    obtain ⟨k1, k2⟩ := ThriftExt.execRates_keeps _ _ _ e1
    have hl : levels A x.rates = y.rates.map (level A.acc) := by rw [levels_getRates a, d, level_toConfigs e]
    rw [hl] at e2
    have hv : v ≤ 2 := by
      have := e2.1
      rw [List.length_map] at this
      have hlen : y.rates.length = x.rates.length := by
        have := congrArg List.length hl
        rw [Meter.levels_length, List.length_map] at this
        exact this.symm
      omega
    refine ⟨v, { x with rates := rs' }, some { y with seen := ⟨(now - t0) / 1000, if q then 1 else len, v⟩ :: y.seen }, ?_,
      ⟨v, e2, psaColor_eq hv, rfl⟩, h1, h2, by rw [← h3]; exact k1, a, e3, e6, ?_, e, Nat.le_refl _, ?_⟩
    · simp only [Meter.execute, a, Bool.not_true, Bool.false_eq_true, if_false, h2, Nat.not_lt.2 h0, h1, e1]
      simp [a]
    · rw [← d]
      simp only [Meter.getRates, a, k2]
    · intro r hr
      obtain ⟨r0, g1, g2, g3⟩ := e7 r hr
      rw [g2, g3]
      exact g r0 g1

/-- Changing one meter. -/
theorem meters_set {ms : List (Meter.Meter R)} {k : Nat} {q : Bool} {m : Nat → Option (MtrS R)}
    (h : ∀ i x, ms[i]? = some x → MRel A t0 T t k q x (m i)) (j : Nat) {x' : Meter.Meter R} {m' : Option (MtrS R)}
    (hx : MRel A t0 T t k q x' m') : ∀ i x, (ms.set j x')[i]? = some x → MRel A t0 T t k q x (put m j m' i) := by
  intro i x hi
  by_cases e : i = j
  · subst e
    rw [List.getElem?_set_self'] at hi
    cases hs : ms[i]? with
    | none => rw [hs] at hi; exact absurd hi (by simp)
    | some _ => rw [hs] at hi; cases hi; simp only [put, if_true]; exact hx
  · rw [List.getElem?_set_ne (Ne.symm e)] at hi
    simp only [put, if_neg e]
    exact h i x hi

theorem meter_set {k : Nat} {q : Bool} {x : Meter.Meter R} {m : Option (MtrS R)} {rs : List (R × Int32)}
    (h : MRel A t0 T t k q x m) (hl : rs.length = k) (hg : Good A.gt A.acc T rs) :
    ∃ x', Meter.setRates A x (toConfigs rs) = some (.success, x') ∧ MRel A t0 T t k q x' (some ⟨rs, []⟩) := by
  obtain ⟨h1, h2, h3, _⟩ := h
  obtain ⟨r, _, e⟩ := Meter.setRates_eq (A := A) x (toConfigs rs) (by simp [toConfigs, hl, h3])
  rw [ThriftExt.codeOf_ascending A rs hg.2.1, if_pos rfl] at e
  refine ⟨_, e, h1, h2, by simp [Meter.toRates_length, toConfigs, hl], rfl, Meter.ordered_toRates _, ?_, ThriftExt.getRates_set _ _,
    hg.1, Nat.zero_le _, ?_⟩
  · intro r hr
    obtain ⟨a, b, _⟩ := Meter.toRates_mem _ 0 r (List.mem_reverse.1 hr)
    refine ⟨by omega, fun u _ => ⟨by omega, ?_⟩⟩
    simp only [avail, Meter.Rate.level]
    omega
  · intro r hr
    obtain ⟨_, _, c⟩ := Meter.toRates_mem _ 0 r (List.mem_reverse.1 hr)
    rw [toConfigs, List.mem_map] at c
    obtain ⟨p, hp, hc⟩ := c
    have h5 := hg.2.2 p hp
    have h6 := hg.1 p hp
    have h7 := p.2.toInt_lt
    injection hc with c1 c2
    rw [← c1, ← c2, toSize]
    generalize p.2.toInt = z at *
    omega

theorem meters_setAll {k : Nat} {q : Bool} {rs : List (R × Int32)} (hl : rs.length = k) (hg : Good A.gt A.acc T rs) :
    ∀ (ms : List (Meter.Meter R)), (∀ x ∈ ms, ∃ m, MRel A t0 T t k q x m) →
    ∃ ms', Meter.arraySetRates A ms (toConfigs rs) = some (.success, ms') ∧ ms'.length = ms.length ∧
      ∀ x ∈ ms', MRel A t0 T t k q x (some ⟨rs, []⟩)
  | [], _ => ⟨[], rfl, rfl, by simp⟩
  | x :: ms, h => by
    obtain ⟨m, hm⟩ := h x (by simp)
    obtain ⟨x', e1, e2⟩ := meter_set hm hl hg
    obtain ⟨ms', f1, f2, f3⟩ := meters_setAll hl hg ms fun y hy => h y (by simp [hy])
    refine ⟨x' :: ms', ?_, by simp [f2], ?_⟩
    · simp [Meter.arraySetRates, e1, f1]
    · intro y hy
      rcases List.mem_cons.1 hy with rfl | hy
      · exact e2
      · exact f3 y hy

theorem meters_setNone {k : Nat} {rs : List (R × Int32)} (hl : rs.length ≠ k) (ms : List (Meter.Meter R))
    (h : ∀ x ∈ ms, x.rates.length = k) : ∃ c, Meter.arraySetRates A ms (toConfigs rs) = some (c, ms) := by
  cases ms with
  | nil => exact ⟨_, rfl⟩
  | cons x ms => exact ⟨.badRatesList, by simp [Meter.arraySetRates, ThriftExt.setRates_bad (h x (by simp)) hl]⟩

theorem mem_get {α : Type} {l : List α} {x : α} (h : x ∈ l) : ∃ i : Nat, l[i]? = some x := by
  obtain ⟨i, hi, rfl⟩ := List.getElem_of_mem h
  exact ⟨i, List.getElem?_eq_getElem hi⟩

/-! ## Events -/

theorem req_ok (h : Inv A ds t0 T t s st) (r : Req R) (hp : Possible ds A.gt A.acc T (.req r)) :
    ∃ s' a st', exec A s r = some (s', a) ∧ Inv A ds t0 T t s' st' ∧ Says st st' r a := by
  cases r with
  | cntRead n i =>
    rcases hp with hn | hn
    · obtain ⟨h1, h2⟩ := h.absent hn
      exact ⟨s, .exc .cntName, st, by simp only [exec, h1], h, rfl, Or.inl ⟨h2, rfl⟩⟩
    · obtain ⟨cs, b, p, h1, h2, h3, h4⟩ := h.counter hn
      by_cases hi : Inside i cs.length
      · obtain ⟨e1, e2⟩ := toSize_inside hi
        obtain ⟨c1, c2⟩ := h4 (pos i) _ (List.getElem?_eq_getElem e2)
        refine ⟨s, _, st, by simp only [exec, h1, e1, if_neg (Nat.not_le.2 e2), List.getElem?_eq_getElem e2, Option.map_some]; rfl, h, rfl,
          Or.inr ⟨_, b, p, h2, fun _ => ?_, fun k => absurd hi k⟩⟩
        rw [ofInt_mod _ _ c1, ofInt_mod _ _ c2]
      · exact ⟨s, .exc .cntIndex, st, by simp only [exec, h1, if_pos (show toSize i ≥ cs.length from toSize_outside h3 hi)], h, rfl,
          Or.inr ⟨_, b, p, h2, fun k => absurd k hi, fun _ => rfl⟩⟩
  | cntWrite n i x y =>
    rcases hp with hn | hn
    · obtain ⟨h1, h2⟩ := h.absent hn
      exact ⟨s, .exc .cntName, st, by simp only [exec, h1], h, Or.inl ⟨h2, rfl, rfl⟩⟩
    · obtain ⟨cs, b, p, h1, h2, h3, h4⟩ := h.counter hn
      by_cases hi : Inside i cs.length
      · obtain ⟨e1, e2⟩ := toSize_inside hi
        refine ⟨_, .done, _, by simp only [exec, h1, e1, if_neg (Nat.not_le.2 e2), List.getElem?_eq_getElem e2, Option.map_some]; rfl, ?_,
          Or.inr ⟨_, b, p, h2, fun _ => ⟨rfl, rfl⟩, fun k => absurd hi k⟩⟩
        exact h.set h2 rfl ⟨List.length_set, h3, counters_set h4 _ (CRel.write _ _ _ _)⟩
      · exact ⟨s, .exc .cntIndex, st, by simp only [exec, h1, if_pos (show toSize i ≥ cs.length from toSize_outside h3 hi)], h,
          Or.inr ⟨_, b, p, h2, fun k => absurd k hi, fun _ => ⟨rfl, rfl⟩⟩⟩
  | cntReset n =>
    rcases hp with hn | hn
    · obtain ⟨h1, h2⟩ := h.absent hn
      exact ⟨s, .exc .cntName, st, by simp only [exec, h1], h, Or.inl ⟨h2, rfl, rfl⟩⟩
    · obtain ⟨cs, b, p, h1, h2, h3, h4⟩ := h.counter hn
      refine ⟨_, .done, _, by simp only [exec, h1]; rfl, ?_, Or.inr ⟨_, b, p, h2, rfl, rfl⟩⟩
      refine h.set h2 rfl ⟨List.length_map _, h3, fun i k hk => ?_⟩
      rw [List.getElem?_map] at hk
      cases hc : cs[i]? with
      | none => rw [hc] at hk; exact absurd hk (by simp)
      | some k0 => rw [hc] at hk; cases hk; exact CRel.zero k0
  | mtrSet n i rs =>
    obtain ⟨hn | hn, hg⟩ := hp
    · obtain ⟨h1, h2⟩ := h.absent hn
      exact ⟨s, .exc .mtrName, st, by simp only [exec, h1], h, Or.inl ⟨h2, rfl, rfl⟩⟩
    · obtain ⟨ms, k, q, m, h1, h2, h3, h4, h5⟩ := h.meter hn
      by_cases hi : Inside i ms.length
      · obtain ⟨e1, e2⟩ := toSize_inside hi
        have hx := h5 (pos i) _ (List.getElem?_eq_getElem e2)
        by_cases hl : rs.length = k
        · obtain ⟨x', f1, f2⟩ := meter_set hx hl hg
          refine ⟨s.set n (.meter (ms.set (pos i) x')), .done, upd st n (.meter ms.length k q (put m (pos i) (some ⟨rs, []⟩))), ?_, ?_,
            Or.inr ⟨_, k, q, m, h2, fun _ _ => ⟨rfl, rfl⟩, fun _ k' => absurd hl k', fun k' => absurd hi k'⟩⟩
          · simp [exec, h1, e1, if_neg (Nat.not_le.2 e2), List.getElem?_eq_getElem e2, f1]
          · exact h.set h2 rfl ⟨List.length_set, h3, h4, meters_set h5 _ f2⟩
        · refine ⟨s, .done, st, ?_, h,
            Or.inr ⟨_, k, q, m, h2, fun _ k' => absurd k' hl, fun _ _ => rfl, fun k' => absurd hi k'⟩⟩
          have f1 := ThriftExt.setRates_bad (A := A) hx.2.2.1 hl
          have hs : s.set n (.meter ms) = s := by
            refine List.ext_getElem? fun j => ?_
            by_cases e : j = n
            · subst e; rw [List.getElem?_set_self', h1]; rfl
            · rw [List.getElem?_set_ne (Ne.symm e)]
          simp [exec, h1, e1, if_neg (Nat.not_le.2 e2), List.getElem?_eq_getElem e2, f1, hs]
      · exact ⟨s, .exc .mtrIndex, st, by simp only [exec, h1, if_pos (show toSize i ≥ ms.length from toSize_outside h3 hi)], h,
          Or.inr ⟨_, k, q, m, h2, fun k' => absurd k' hi, fun k' => absurd k' hi, fun _ => ⟨rfl, rfl⟩⟩⟩
  | mtrSetAll n rs =>
    obtain ⟨hn | hn, hg⟩ := hp
    · obtain ⟨h1, h2⟩ := h.absent hn
      exact ⟨s, .exc .mtrName, st, by simp only [exec, h1], h, Or.inl ⟨h2, rfl, rfl⟩⟩
    · obtain ⟨ms, k, q, m, h1, h2, h3, h4, h5⟩ := h.meter hn
      by_cases hl : rs.length = k
      · obtain ⟨ms', f1, f2, f3⟩ := meters_setAll hl hg ms (fun x hx => by
          obtain ⟨i, hi⟩ := mem_get hx
          exact ⟨_, h5 i x hi⟩)
        refine ⟨s.set n (.meter ms'), .done, upd st n (.meter ms.length k q (fun _ => some ⟨rs, []⟩)), ?_, ?_,
          Or.inr ⟨_, k, q, m, h2, fun _ => ⟨rfl, rfl⟩, fun k' => absurd hl k'⟩⟩
        · simp [exec, h1, f1]
        · exact h.set h2 rfl ⟨f2, h3, h4, fun i x hx => f3 x (List.mem_of_getElem? hx)⟩
      · obtain ⟨c, f1⟩ := meters_setNone (A := A) hl ms (fun x hx => by
          obtain ⟨i, hi⟩ := mem_get hx
          exact (h5 i x hi).2.2.1)
        refine ⟨s, .done, st, ?_, h, Or.inr ⟨_, k, q, m, h2, fun k' => absurd k' hl, fun _ => rfl⟩⟩
        have hs : s.set n (.meter ms) = s := by
          refine List.ext_getElem? fun j => ?_
          by_cases e : j = n
          · subst e; rw [List.getElem?_set_self', h1]; rfl
          · rw [List.getElem?_set_ne (Ne.symm e)]
        simp [exec, h1, f1, hs]
  | mtrGet n i =>
    rcases hp with hn | hn
    · obtain ⟨h1, h2⟩ := h.absent hn
      exact ⟨s, .exc .mtrName, st, by simp only [exec, h1], h, rfl, Or.inl ⟨h2, rfl⟩⟩
    · obtain ⟨ms, k, q, m, h1, h2, h3, h4, h5⟩ := h.meter hn
      by_cases hi : Inside i ms.length
      · obtain ⟨e1, e2⟩ := toSize_inside hi
        refine ⟨s, _, st, by simp only [exec, h1, e1, if_neg (Nat.not_le.2 e2), List.getElem?_eq_getElem e2, Option.map_some]; rfl, h, rfl,
          Or.inr ⟨_, k, q, m, h2, fun _ => ?_, fun k' => absurd hi k'⟩⟩
        obtain ⟨_, _, _, hx⟩ := h5 (pos i) _ (List.getElem?_eq_getElem e2)
        cases hm : m (pos i) with
        | none =>
          rw [hm] at hx
          simp only [Meter.getRates, show (ms[pos i]).configured = false from hx]
          rfl
        | some y =>
          rw [hm] at hx
          rw [hx.2.2.2.1, ofConfigs_toConfigs]
          rfl
      · exact ⟨s, .exc .mtrIndex, st, by simp only [exec, h1, if_pos (show toSize i ≥ ms.length from toSize_outside h3 hi)], h, rfl,
          Or.inr ⟨_, k, q, m, h2, fun k' => absurd k' hi, fun _ => rfl⟩⟩

theorem step_ok (hmono : ∀ r, Monotone (A.acc r)) {now : Nat} (h : Inv A ds t0 T ((now - t0) / 1000) s st) (h0 : t0 ≤ now)
    (hT : (now - t0) / 1000 ≤ T) (e : Ev R) (hp : Possible ds A.gt A.acc T e) :
    ∃ s' a st', step A s now e = some (s', a) ∧ Inv A ds t0 T ((now - t0) / 1000) s' st' ∧
      Does A.acc ((now - t0) / 1000) st st' e a := by
  cases e with
  | count n i len =>
    obtain ⟨cs, b, p, h1, h2, h3, h4⟩ := h.counter hp
    by_cases hi : i < cs.length
    · refine ⟨_, .none, _, by simp only [step, count, h1, if_neg (Nat.not_le.2 hi), List.getElem?_eq_getElem hi, Option.map_some]; rfl, ?_,
        _, b, p, h2, fun _ => rfl, fun k => absurd k (Nat.not_le.2 hi)⟩
      exact h.set h2 rfl ⟨List.length_set, h3, counters_set h4 _ ((h4 i _ (List.getElem?_eq_getElem hi)).inc _ _)⟩
    · exact ⟨s, .none, st, by simp only [step, count, h1, if_pos (Nat.not_lt.1 hi), Option.map_some], h,
        _, b, p, h2, fun k => absurd k hi, fun _ => rfl⟩
  | execute n i len old =>
    obtain ⟨ms, k, q, m, h1, h2, h3, h4, h5⟩ := h.meter hp
    by_cases hi : i < ms.length
    · obtain ⟨c, x', m', e1, e2, e3⟩ := meter_exec (len := len) hmono (h5 i _ (List.getElem?_eq_getElem hi)) h4 h0 hT
      refine ⟨s.set n (.meter (ms.set i x')), .value (psaColor c), upd st n (.meter ms.length k q (put m i m')), ?_, ?_,
        _, k, q, m, h2, fun _ => ⟨m', e2, rfl⟩, fun k' => absurd k' (Nat.not_le.2 hi)⟩
      · simp [step, execute, h1, if_neg (Nat.not_le.2 hi), Meter.arrayExecute, List.getElem?_eq_getElem hi, e1]
      · exact h.set h2 rfl ⟨List.length_set, h3, h4, meters_set h5 _ e3⟩
    · exact ⟨s, .value old, st, by simp only [step, execute, h1, if_pos (Nat.not_lt.1 hi), Option.map_some], h,
        _, k, q, m, h2, fun k' => absurd k' hi, fun _ => ⟨rfl, rfl⟩⟩
  | random n u =>
    obtain ⟨lo, hi, h1, h2, h3⟩ := h.random hp
    refine ⟨s, .value (lo + u % (hi - lo + 1)), st, by simp only [step, draw, h1, Option.map_some], h, lo, hi, h2, by omega, ?_, rfl⟩
    have := Nat.mod_lt u (show 0 < hi - lo + 1 by omega)
    omega
  | req r =>
    obtain ⟨s', a, st', h1, h2, h3⟩ := req_ok h r hp
    exact ⟨s', .reply a, st', by simp only [step, h1, Option.map_some], h2, h3⟩
  | resetState => exact absurd hp (by simp [Possible])

theorem run_ok (hmono : ∀ r, Monotone (A.acc r)) : ∀ (es : List (Nat × Ev R)) {t : Nat} {s : List (Inst R)} {st : St R},
    Inv A ds t0 T t s st → es.Pairwise (fun x y => x.1 ≤ y.1) →
    (∀ e ∈ es, t0 ≤ e.1 ∧ t ≤ (e.1 - t0) / 1000 ∧ (e.1 - t0) / 1000 ≤ T ∧ Possible ds A.gt A.acc T e.2) →
    ∃ s' as st', run A s es = some (s', as) ∧ Follows A.acc t0 st st' es as
  | [], t, s, st, h, _, _ => ⟨s, [], st, rfl, rfl⟩
  | (now, e) :: es, t, s, st, h, hs, hp => by
    obtain ⟨p1, p2, p3, p4⟩ := hp _ List.mem_cons_self
    rw [List.pairwise_cons] at hs
    obtain ⟨s1, a, st1, h1, h2, h3⟩ := step_ok hmono (h.mono p2) p1 p3 e p4
    obtain ⟨s2, as, st2, k1, k2⟩ := run_ok hmono es h2 hs.2 (fun x hx => by
      obtain ⟨q1, _, q3, q4⟩ := hp x (List.mem_cons_of_mem _ hx)
      have : now ≤ x.1 := hs.1 x hx
      exact ⟨q1, by show (now - t0) / 1000 ≤ _; omega, q3, q4⟩)
    refine ⟨s2, a :: as, st2, ?_, st1, h3, k2⟩
    rw [run, h1]
    simp only [Option.bind_eq_bind, Option.bind_some, k1]
    rfl

/-! ## The start -/

theorem init_ok (zero : R) (T : Nat) (d : Decl) (hd : d.Fine) :
    ∃ i, d.init zero t0 = some i ∧ IRel A t0 T 0 i d.start := by
  cases d with
  | counter n =>
    refine ⟨_, rfl, List.length_replicate, hd, fun i k hk => ?_⟩
    rw [List.getElem?_replicate] at hk
    split at hk
    · cases hk; simp [CRel]
    · exact absurd hk (by simp)
  | meter n type k =>
    refine ⟨_, rfl, List.length_replicate, hd.1, hd.2, fun i x hx => ?_⟩
    rw [List.getElem?_replicate] at hx
    split at hx
    · cases hx
      refine ⟨?_, rfl, by simp [Meter.fresh], rfl⟩
      by_cases e : type = "bytes" <;> simp [Meter.fresh, e]
    · exact absurd hx (by simp)
  | random lo hi => exact ⟨.random lo hi, by rw [Decl.init, if_pos (show hi > lo from hd)], rfl, rfl, hd⟩
  | other => exact ⟨.other, rfl, trivial⟩

theorem load_ok (zero : R) (T : Nat) : ∀ (ds : List Decl), (∀ d ∈ ds, d.Fine) →
    ∃ s, load zero t0 ds = some s ∧ Inv A ds t0 T 0 s (start ds)
  | [], _ => ⟨[], rfl, rfl, fun n i hi => by simp at hi, fun n _ => by simp [start], fun n => by simp [start]⟩
  | d :: ds, h => by
    obtain ⟨i, e1, e2⟩ := init_ok (A := A) (t0 := t0) zero T d (h d (by simp))
    obtain ⟨s, f1, f2⟩ := load_ok zero T ds (fun x hx => h x (by simp [hx]))
    refine ⟨i :: s, ?_, by simp [f2.len], fun n j hj => ?_, fun n hn => ?_, fun n => ?_⟩
    · rw [load] at f1 ⊢
      simp [List.mapM_cons, e1, f1]
    · cases n with
      | zero => simp only [List.getElem?_cons_zero, Option.some.injEq] at hj; subst hj; exact ⟨d.start, by simp [start], e2⟩
      | succ n => exact f2.rel n j (by simpa using hj)
    · cases n with
      | zero => simp at hn
      | succ n => exact f2.gone n (by simpa using hn)
    · cases n with
      | zero => cases d <;> simp [start, Decl.start, Obj.kind, Decl.kind]
      | succ n => exact f2.kind n

end Bm.PsaExt
