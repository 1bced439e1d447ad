import Verif.Model.Meter
import Verif.Spec.Meter
import Mathlib.Order.Monotone.Basic
import Mathlib.Data.List.Induction

/-!
# Lemmas about meters
-/

namespace Bm.Meter

open Spec.Meter

variable {R : Type} {A : RateArith R}

/-! ## `set_rates` -/

/-- The rates after a successful configuration, from position `idx` on (before reversing). -/
def toRates : List (Config R) → Nat → List (Rate R)
  | [], _ => []
  | c :: cs, idx => c.toRate idx :: toRates cs (idx + 1)

/-- The result of a configuration; `prev` is the preceding rate. -/
def codeOf (A : RateArith R) : Option R → List (Config R) → Code
  | _, [] => .success
  | none, c :: cs => codeOf A (some c.infoRate) cs
  | some p, c :: cs => if A.gt p c.infoRate then .invalidInfoRate else codeOf A (some c.infoRate) cs

theorem toRates_length (cs : List (Config R)) (i : Nat) : (toRates cs i).length = cs.length := by
  induction cs generalizing i with
  | nil => rfl
  | cons c cs ih => simp [toRates, ih]

/-- The rate before position `idx`. -/
def prevRate (rates : List (Rate R)) : Nat → Option R
  | 0 => none
  | i + 1 => (rates[i]?).map Rate.infoRate

theorem setLoop_eq (cs : List (Config R)) (idx : Nat) (rates : List (Rate R))
    (h : idx + cs.length = rates.length) :
    ∃ rates', setLoop A cs idx rates = some (codeOf A (prevRate rates idx) cs, rates') ∧
      rates'.length = rates.length ∧
      (codeOf A (prevRate rates idx) cs = .success → rates' = rates.take idx ++ toRates cs idx) := by
  induction cs generalizing idx rates with
  | nil =>
    refine ⟨rates, by simp [setLoop, codeOf], rfl, fun _ => ?_⟩
    simp only [List.length_nil, Nat.add_zero] at h
    simp [toRates, h]
  | cons c cs ih =>
    simp only [List.length_cons] at h
    have hlt : idx < rates.length := by omega
    have hnext : prevRate (rates.set idx (c.toRate idx)) (idx + 1) = some c.infoRate := by
      simp [prevRate, hlt, Config.toRate]
    have htake : (rates.set idx (c.toRate idx)).take (idx + 1)
        = rates.take idx ++ [c.toRate idx] := by
      rw [List.take_succ_eq_append_getElem (by simpa using hlt), List.take_set_of_le (Nat.le_refl _)]
      simp
    obtain ⟨r2, e1, e2, e3⟩ := ih (idx + 1) (rates.set idx (c.toRate idx))
      (by simp only [List.length_set]; omega)
    rw [hnext] at e1 e3
    rw [htake] at e3
    rw [List.length_set] at e2
    cases idx with
    | zero =>
      refine ⟨r2, ?_, e2, ?_⟩
      · simp only [setLoop, setRate, hlt, if_true, Option.bind_eq_bind, Option.bind_some, e1]
        rfl
      · intro hs
        rw [e3 hs]
        simp [toRates]
    | succ i =>
      have hi : i < rates.length := by omega
      have hgi : (rates.set (i + 1) (c.toRate (i + 1)))[i]? = some rates[i] := by
        simp [List.getElem?_set, hi]
      have hp : prevRate rates (i + 1) = some (rates[i]).infoRate := by simp [prevRate, hi]
      rw [hp]
      by_cases hg : A.gt (rates[i]).infoRate c.infoRate = true
      · refine ⟨rates.set (i + 1) (c.toRate (i + 1)), ?_, by simp, ?_⟩
        · simp [setLoop, setRate, hlt, hgi, hg, codeOf]
        · simp [codeOf, hg]
      · refine ⟨r2, ?_, e2, ?_⟩
        · simp only [setLoop, setRate, hlt, if_true, hgi, hg, Bool.false_eq_true, if_false,
            Option.bind_eq_bind, Option.bind_some, e1, codeOf]
        · simp only [codeOf, hg, Bool.false_eq_true, if_false]
          intro hs
          rw [e3 hs]
          simp [toRates]

theorem setRates_eq (m : Meter R) (cs : List (Config R)) (h : cs.length = m.rates.length) :
    ∃ rates', rates'.length = m.rates.length ∧ setRates A m cs = some (codeOf A none cs,
      if codeOf A none cs = .success then
        { m with rates := (toRates cs 0).reverse, configured := true }
      else { m with rates := rates' }) := by
  obtain ⟨r, e1, e2, e3⟩ := setLoop_eq (A := A) cs 0 m.rates (by omega)
  have hp : prevRate m.rates 0 = none := rfl
  rw [hp] at e1 e3
  refine ⟨r, e2, ?_⟩
  simp only [setRates, h, ne_eq, not_true_eq_false, if_false, e1, Option.bind_eq_bind,
    Option.bind_some, Option.pure_def]
  by_cases hs : codeOf A none cs = .success
  · simp [hs, e3 hs]
  · simp [hs]

/-! ## The buckets -/

/-- The level a stored rate stands for. -/
def Rate.level (A : RateArith R) (r : Rate R) : Level := ⟨r.burst, A.acc r.infoRate⟩

/-- Colours descend to 1. -/
def Ordered : List (Rate R) → Prop
  | [] => True
  | r :: rs => r.color = rs.length + 1 ∧ Ordered rs

/-- Time of the latest packet. -/
def latest : List Seen → Nat
  | [] => 0
  | p :: _ => p.time

/-- The stored bucket, brought up to date, holds what the specification says. -/
def Track (A : RateArith R) (ps : List Seen) (r : Rate R) : Prop :=
  r.tokens ≤ r.burst ∧ ∀ t, latest ps ≤ t → r.last ≤ A.acc r.infoRate t ∧
    avail (r.level A) r.color ps t = min r.burst (r.tokens + (A.acc r.infoRate t - r.last))

theorem Ordered.le {rs : List (Rate R)} (h : Ordered rs) : ∀ r ∈ rs, r.color ≤ rs.length := by
  induction rs with
  | nil => simp
  | cons r rs ih =>
    intro q hq
    rcases List.mem_cons.1 hq with rfl | hq
    · simp [h.1]
    · have := ih h.2 q hq
      simp; omega

/-- The levels of a list of stored rates, level 1 first. -/
def levels (A : RateArith R) (rs : List (Rate R)) : List Level := (rs.map (Rate.level A)).reverse

theorem levels_cons (r : Rate R) (rs : List (Rate R)) :
    levels A (r :: rs) = levels A rs ++ [r.level A] := by simp [levels]

theorem levels_length (rs : List (Rate R)) : (levels A rs).length = rs.length := by simp [levels]

theorem execRates_spec (hmono : ∀ r, Monotone (A.acc r)) (micros input : Nat) (ps : List Seen)
    (hlat : latest ps ≤ micros) (rs : List (Rate R)) (ho : Ordered rs)
    (ht : ∀ r ∈ rs, Track A ps r)
    (hw : ∀ r ∈ rs, r.burst + A.acc r.infoRate micros < 2 ^ 64) :
    ∃ v rs', execRates A micros input rs = some (v, rs') ∧ Gets (levels A rs) ps micros input v ∧
      Ordered rs' ∧ rs'.length = rs.length ∧ levels A rs' = levels A rs ∧
      (∀ r ∈ rs', Track A (⟨micros, input, v⟩ :: ps) r) ∧
      (∀ r ∈ rs', ∃ q ∈ rs, r.burst = q.burst ∧ r.infoRate = q.infoRate) := by
  induction rs with
  | nil =>
    refine ⟨0, [], rfl, ⟨Nat.zero_le _, ?_, ?_⟩, trivial, rfl, rfl, by simp, by simp⟩
    · intro L h; exact absurd rfl h
    · intro k L _ h; simp [levels] at h
  | cons r rs ih =>
    have htr := ht r (by simp)
    have hwr := hw r (by simp)
    obtain ⟨hlast, hav⟩ := htr.2 micros hlat
    have hlt : A.acc r.infoRate micros < 2 ^ 64 := by omega
    have hsum : r.tokens + (A.acc r.infoRate micros - r.last) < 2 ^ 64 := by
      have := htr.1; omega
    have htok : min ((r.tokens + (A.acc r.infoRate micros - r.last)) % 2 ^ 64) r.burst
        = avail (r.level A) r.color ps micros := by
      rw [Nat.mod_eq_of_lt hsum, hav, Nat.min_comm]
    unfold execRates
    simp only [Nat.not_le.2 hlt, ge_iff_le, if_false, Nat.not_lt.2 hlast, htok]
    have hle : avail (r.level A) r.color ps micros ≤ r.burst := by rw [hav]; omega
    have hget : (levels A (r :: rs))[rs.length]? = some (r.level A) := by
      rw [levels_cons, ← levels_length (A := A) rs, List.getElem?_concat_length]
    by_cases hf : avail (r.level A) r.color ps micros < input
    · simp only [hf, if_true]
      refine ⟨_, _, rfl, ?_, ho, by simp, ?_, ?_, ?_⟩
      · refine ⟨by simp [levels_length, ho.1], ?_, ?_⟩
        · intro L _ hL
          rw [ho.1, Nat.add_sub_cancel, hget] at hL
          rw [← Option.some.inj hL]; exact hf
        · intro k L hk hL
          rw [ho.1] at hk
          have := (List.getElem?_eq_some_iff.1 hL).1
          rw [levels_length] at this
          simp only [List.length_cons] at this
          omega
      · rw [levels_cons, levels_cons]; rfl
      · intro q hq
        rcases List.mem_cons.1 hq with rfl | hq
        · refine ⟨hle, fun t htt => ⟨hmono _ htt, ?_⟩⟩
          simp only [avail, Nat.lt_irrefl, if_false, Nat.sub_zero]
          rfl
        · have hqt := ht q (by simp [hq])
          refine ⟨hqt.1, fun t htt => ?_⟩
          have hqo := ho.2.le q hq
          have h1 := hqt.2 t (Nat.le_trans hlat htt)
          have h2 := hqt.2 micros hlat
          have h3 : A.acc q.infoRate micros ≤ A.acc q.infoRate t := hmono _ htt
          refine ⟨h1.1, ?_⟩
          simp only [avail]
          rw [if_neg (by rw [ho.1]; omega), h2.2]
          simp only [Rate.level]
          omega
      · intro q hq
        rcases List.mem_cons.1 hq with rfl | hq
        · exact ⟨r, by simp, rfl, rfl⟩
        · exact ⟨q, by simp [hq], rfl, rfl⟩
    · obtain ⟨v, rs', e1, e2, e3, e4, e5, e6, e7⟩ := ih ho.2 (fun q hq => ht q (by simp [hq]))
        (fun q hq => hw q (by simp [hq]))
      simp only [hf, if_false, e1, Option.bind_eq_bind, Option.bind_some, Option.pure_def]
      have hv : v ≤ rs.length := by have := e2.1; rwa [levels_length] at this
      refine ⟨v, _, rfl, ?_, ⟨by simpa [e4] using ho.1, e3⟩, by simp [e4], ?_, ?_, ?_⟩
      · refine ⟨by simp [levels_length]; omega, ?_, ?_⟩
        · intro L hv0 hL
          refine e2.2.1 L hv0 ?_
          rw [levels_cons, List.getElem?_append_left (by rw [levels_length]; omega)] at hL
          exact hL
        · intro k L hk hL
          have hkl := (List.getElem?_eq_some_iff.1 hL).1
          rw [levels_length] at hkl
          simp only [List.length_cons] at hkl
          by_cases hke : k = rs.length + 1
          · subst hke
            rw [Nat.add_sub_cancel, hget] at hL
            rw [← Option.some.inj hL, ← ho.1]
            omega
          · refine e2.2.2 k L hk ?_
            rw [levels_cons, List.getElem?_append_left (by rw [levels_length]; omega)] at hL
            exact hL
      · rw [levels_cons, levels_cons, e5]; rfl
      · intro q hq
        rcases List.mem_cons.1 hq with rfl | hq
        · refine ⟨by simp only; omega, fun t htt => ⟨hmono _ htt, ?_⟩⟩
          simp only [avail]
          rw [if_pos (by rw [ho.1]; omega)]
          rfl
        · exact e6 q hq
      · intro q hq
        rcases List.mem_cons.1 hq with rfl | hq
        · exact ⟨r, by simp, rfl, rfl⟩
        · obtain ⟨q', h1, h2⟩ := e7 q hq
          exact ⟨q', by simp [h1], h2⟩

theorem toRates_mem (cs : List (Config R)) (i : Nat) : ∀ r ∈ toRates cs i,
    r.tokens = r.burst ∧ r.last = 0 ∧ ⟨r.infoRate, r.burst⟩ ∈ cs := by
  induction cs generalizing i with
  | nil => simp [toRates]
  | cons c cs ih =>
    intro r hr
    rcases List.mem_cons.1 hr with rfl | hr
    · exact ⟨rfl, rfl, by simp [Config.toRate]⟩
    · obtain ⟨a, b, d⟩ := ih _ r hr
      exact ⟨a, b, by simp [d]⟩

theorem toRates_append (cs ds : List (Config R)) (i : Nat) :
    toRates (cs ++ ds) i = toRates cs i ++ toRates ds (i + cs.length) := by
  induction cs generalizing i with
  | nil => simp [toRates]
  | cons c cs ih =>
    simp only [List.cons_append, toRates, ih, List.length_cons, List.cons.injEq, true_and]
    congr 2
    omega

theorem ordered_toRates (cs : List (Config R)) : Ordered (toRates cs 0).reverse := by
  induction cs using List.reverseRecOn with
  | nil => trivial
  | append_singleton cs c ih =>
    rw [toRates_append]
    simp only [toRates, Nat.zero_add, List.reverse_append, List.reverse_cons, List.reverse_nil,
      List.nil_append, List.singleton_append]
    exact ⟨by simp [Config.toRate, toRates_length], ih⟩

theorem toRates_level (cs : List (Config R)) (i : Nat) :
    (toRates cs i).map (Rate.level A) = cs.map fun c => ⟨c.burst, A.acc c.infoRate⟩ := by
  induction cs generalizing i with
  | nil => rfl
  | cons c cs ih => simp [toRates, ih, Config.toRate, Rate.level]

theorem toRates_levels (cs : List (Config R)) :
    levels A (toRates cs 0).reverse = cs.map fun c => ⟨c.burst, A.acc c.infoRate⟩ := by
  simp [levels, toRates_level]

end Bm.Meter
