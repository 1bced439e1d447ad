import Verif.Lemmas.PsaExt

/-!
# C113: counters, meters and random numbers of psa_switch
-/

namespace Bm.PsaExt

open Bm.PsaExt.Spec
open Bm.Meter (RateArith)
open Bm.ThriftExt (Reply)
open Bm.ThriftExt.Spec (Bursts ascending)

variable {R : Type} {A : RateArith R}

/-- **C113 (partial).** A program whose counters, meters and ranges are declared as usual is loaded, and then packets and requests, in
any order, at times which never go back, all do what they should: a counter tells the number of packets and bytes counted since it was
last written, plus what was written; a packet gets from a meter the colour of PSA for the most severe level it violates, given the rates
set last and the packets seen by this meter since then, and leaves all other meters as they are; packets with an index outside the
array change nothing; random numbers are in their range; requests about names or indices which do not exist are refused with their
error code.

Missing: what is said about rates which are not accepted (`C113_refuted_told`), and what is done with those in the wrong order
(`C113_refuted_order`); requests with the name of an instance of another kind (`C113_refuted_type`); resetting the state
(`C113_refuted_reset`); meters with more than two rates (`C113_refuted_three`); ranges of one number (`C113_refuted_range`); rates
and burst sizes whose tokens reach 2^64. -/
theorem C113_partial (hmono : ∀ r, Monotone (A.acc r)) (zero : R) (t0 T : Nat) (ds : List Decl) (hd : ∀ d ∈ ds, d.Fine)
    (es : List (Nat × Ev R)) (hs : es.Pairwise fun x y => x.1 ≤ y.1)
    (hp : ∀ e ∈ es, t0 ≤ e.1 ∧ (e.1 - t0) / 1000 ≤ T ∧ Possible ds A.gt A.acc T e.2) :
    ∃ s s' as st, load zero t0 ds = some s ∧ run A s es = some (s', as) ∧ Follows A.acc t0 (start ds) st es as := by
  obtain ⟨s, h1, h2⟩ := load_ok (A := A) (t0 := t0) zero T ds hd
  obtain ⟨s', as, st, h3, h4⟩ := run_ok hmono es h2 hs (fun e he => by
    obtain ⟨a, b, c⟩ := hp e he
    exact ⟨a, Nat.zero_le _, b, c⟩)
  exact ⟨s, s', as, st, h1, h3, h4⟩

/-- **C113.** Every number of the range can be drawn. -/
theorem C113_all_numbers (s : List (Inst R)) (n lo hi v : Nat) (h : s[n]? = some (.random lo hi)) (h1 : lo ≤ v) (h2 : v ≤ hi) :
    ∃ u, draw s n u = some v := by
  refine ⟨v - lo, ?_⟩
  rw [draw, h]
  simp only [Option.some.injEq]
  rw [Nat.mod_eq_of_lt (by omega)]
  omega

/-! ## Refuted -/

/-- Whole-number rates. -/
def natA : RateArith Nat where
  acc r t := r * t
  gt a b := decide (a > b)

theorem natA_mono (r : Nat) : Monotone (natA.acc r) := fun _ _ h => Nat.mul_le_mul_left r h

/-- What is seen. -/
def seen (ds : List Decl) (es : List (Nat × Ev Nat)) : Option (List (Ans Nat)) := do
  let s ← load 0 0 ds
  let (_, as) ← run natA s es
  return as

/-- **C113 refuted.** Rates of a wrong number and rates in the wrong order are answered with success. -/
theorem C113_refuted_told :
    seen [.meter 1 "packets" 2] [(0, .req (.mtrSet 0 0 [(1, 1)])), (0, .req (.mtrGet 0 0)), (0, .req (.mtrSetAll 0 [(2, 1), (1, 1)])),
      (0, .req (.mtrGet 0 0))] = some [.reply .done, .reply (.rates []), .reply .done, .reply (.rates [])] := by
  decide

/-- **C113 refuted.** Rates in the wrong order are used, in part, by a meter which has rates: what it tells is neither the new nor the
old ones. -/
theorem C113_refuted_order :
    seen [.meter 1 "packets" 2] [(0, .req (.mtrSet 0 0 [(1, 5), (3, 7)])), (0, .req (.mtrGet 0 0)),
      (0, .req (.mtrSet 0 0 [(2, 9), (1, 4)])), (0, .req (.mtrGet 0 0))] =
    some [.reply .done, .reply (.rates [(1, 5), (3, 7)]), .reply .done, .reply (.rates [(1, 4), (2, 9)])] := by
  decide

/-- **C113 refuted.** Reading a counter with the name of a meter (or of any other instance) is undefined behaviour, where
`INVALID_COUNTER_NAME` would be right. -/
theorem C113_refuted_type (s : List (Inst R)) (n : Nat) (i : Int32) (x : Inst R) (h : s[n]? = some x) (hx : ∀ cs, x ≠ .counter cs) :
    exec A s (.cntRead n i) = none ∧ exec A s (.cntReset n) = none := by
  constructor <;> cases x <;> simp_all [exec]

/-- **C113 refuted.** Resetting the state leaves counters and meters as they are. -/
theorem C113_refuted_reset :
    seen [.counter 1, .meter 1 "bytes" 1] [(0, .count 0 0 60), (0, .req (.mtrSet 1 0 [(1, 5)])), (0, .resetState),
      (0, .req (.cntRead 0 0)), (0, .req (.mtrGet 1 0))] =
    some [.none, .reply .done, .reply .done, .reply (.cnt 60 1), .reply (.rates [(1, 5)])] := by
  decide

/-- **C113 refuted.** A meter with three rates: packets which violate the third are green. -/
theorem C113_refuted_three :
    seen [.meter 1 "packets" 3] [(0, .req (.mtrSet 0 0 [(0, 3), (0, 2), (0, 1)])), (0, .execute 0 0 60 9), (0, .execute 0 0 60 9)] =
    some [.reply .done, .value 1, .value 1] := by
  decide

/-- **C113 refuted.** A range of one number stops the switch when the program is loaded. -/
theorem C113_refuted_range (zero : R) (now x : Nat) : load zero now [.random x x] = (none : Option (List (Inst R))) := by
  simp [load, Decl.init]

/-! ## A concrete case -/

/-- Two counters, a meter of bytes and a range. -/
def exDs : List Decl := [.counter 2, .meter 2 "bytes" 2, .random 3 6]

/-- Packets and requests. -/
def exEs : List (Nat × Ev Nat) :=
  [(0, .count 0 1 60), (1000, .req (.cntWrite 0 1 100 5)), (1000, .count 0 1 60), (2000, .count 0 7 60), (2000, .req (.cntRead 0 1)),
   (2000, .req (.cntRead 0 2)), (3000, .execute 1 0 60 9), (4000, .req (.mtrSetAll 1 [(1, 100), (2, 150)])),
   (4000, .execute 1 0 60 9), (4000, .execute 1 0 60 9), (4000, .execute 1 0 60 9), (4000, .execute 1 1 60 9), (5000, .execute 1 2 60 9),
   (100000, .execute 1 0 60 9), (100000, .random 2 10), (100000, .req (.mtrGet 1 1)), (100000, .req (.cntRead 8 0))]

example : seen exDs exEs = some
    [.none, .reply .done, .none, .none, .reply (.cnt 160 6), .reply (.exc .cntIndex), .value 1, .reply .done, .value 1, .value 2,
     .value 0, .value 1, .value 9, .value 1, .value 5, .reply (.rates [(1, 100), (2, 150)]), .reply (.exc .cntName)] := by
  decide

theorem exEs_possible : ∀ e ∈ exEs, 0 ≤ e.1 ∧ (e.1 - 0) / 1000 ≤ 1000 ∧ Possible exDs natA.gt natA.acc 1000 e.2 := by
  intro e he
  simp only [exEs, List.mem_cons, List.not_mem_nil, or_false] at he
  rcases he with rfl | rfl | rfl | rfl | rfl | rfl | rfl | rfl | rfl | rfl | rfl | rfl | rfl | rfl | rfl | rfl | rfl <;>
    simp [Possible, Is, IsOr, exDs, Decl.kind, Good, Bursts, ascending, natA]

example : ∃ s s' as st, load 0 0 exDs = some s ∧ run natA s exEs = some (s', as) ∧ Follows natA.acc 0 (start exDs) st exEs as :=
  C113_partial natA_mono 0 0 1000 exDs (by simp [exDs, Decl.Fine]) exEs (by simp [exEs]) exEs_possible

end Bm.PsaExt
