import Verif.Lemmas.ThriftExt

/-!
# C97: what the Thrift interface says about registers, counters, meters and value sets

Full statement: whatever requests a client sends and packets do, the server stays up, and every reply is what the
specification `Verif/Spec/ThriftExt.lean` says: registers hold the last value written modulo their width, counters
count, meters return the rates that were last accepted, value sets contain what was added, requests with wrong names,
indices, contexts, rates or values are refused and change nothing, and a reset brings everything back to the start.

It does not hold (`C97_refuted_*`): a register that holds 2^63 or more cannot be told; reading all of an empty array says
that there is no such array; rates that are refused have changed the meter; a negative burst size is accepted; a value of
the wrong size brings the server down; a reset leaves the value sets as they are.
-/

namespace Bm.ThriftExt
open Bm.ThriftExt.Spec

variable {R : Type}

/-- The server stays up and tells what it should, until the data plane does something undefined. -/
def Claim (conv : Int → Int64) (A : Meter.RateArith R) (zero : R) (now : Nat) (ds : List Decl) (es : List (Ev R)) : Prop :=
  match run conv A (ds.map fun d => d.init zero now) es with
  | .crash => False
  | .undefined => True
  | .ok (reps, _) => Tells A.gt (ds.map start) es reps

/-- **C97**, partial: for all declarations, all contexts and all histories of requests and packets in which the requests fit
(`AllFit`: the cases above do not occur). -/
theorem C97_partial (conv : Int → Int64) (hconv : ∀ x : Int64, conv x.toInt = x) (A : Meter.RateArith R) (zero : R)
    (now : Nat) (ds : List Decl) (hl : ds.length ≤ 2 ^ 31) (hd : ∀ d ∈ ds, WF d) (es : List (Ev R))
    (hf : AllFit A.gt (ds.map start) es) :
    Claim conv A zero now ds es := by
  refine run_ok hconv es ?_ (by simpa using hl) hf
  clear hf hl
  induction ds with
  | nil => exact .nil
  | cons d ds ih => exact .cons (init_rel (hd d (by simp)) zero now) (ih fun x hx => hd x (by simp [hx]))

/-! ## A history -/

/-- Rates are whole numbers. -/
def natArith : Meter.RateArith Nat := ⟨fun r t => r * t, fun a b => decide (b < a)⟩

/-- A conversion: what does not fit becomes 0. -/
def conv0 (v : Int) : Int64 := if -2 ^ 63 ≤ v ∧ v < 2 ^ 63 then Int64.ofInt v else 0

theorem conv0_ok (x : Int64) : conv0 x.toInt = x := by
  have h1 := x.toInt_lt
  have h2 := x.le_toInt
  simp only [conv0]
  rw [if_pos ⟨h2, h1⟩, Int64.ofInt_toInt]

/-- Four registers of 8 bits, two counters, three meters with two rates, a value set of 16 bits used by one select. -/
def d0 : Decl where
  regs n := if n = 0 then some (4, 8) else none
  cnts n := if n = 1 then some 2 else none
  mtrs n := if n = 2 then some (true, 2, 3) else none
  vsets n := if n = 3 then some (16, [([16], none)]) else none

theorem d0_wf : WF d0 where
  regs n x h := by simp only [d0] at h; split at h <;> cases h; decide
  cnts n x h := by simp only [d0] at h; split at h <;> cases h; decide
  mtrs n x h := by simp only [d0] at h; split at h <;> cases h; decide
  vsets n x h := by
    simp only [d0] at h
    split at h <;> cases h
    intro p hp
    simp only [List.mem_singleton] at hp
    subst hp
    exact ⟨by simp, by simp, rfl, by simp⟩

/-- A negative value is written to a register, then read; counters pass through zero; meters are set one by one and all
together; a value is added, removed and looked for; wrong indices, names and contexts. -/
def h0 : List (Ev Nat) :=
  [.req 0 (.regWrite 0 2 (-1)), .req 0 (.regRead 0 2), .pkt 0 (.regWrite 0 1 300), .req 0 (.regReadAll 0),
   .req 0 (.regRead 0 (-1)), .req 0 (.regWriteRange 0 1 3 7), .req 0 (.regReadAll 0), .req 0 (.regRead 9 0),
   .req (-1) (.regRead 0 0), .req 1 (.regReset 0),
   .req 0 (.cntWrite 1 0 (-1) 5), .pkt 0 (.count 1 0 3), .req 0 (.cntRead 1 0), .req 0 (.cntRead 1 2),
   .req 0 (.mtrSetAll 2 [(1, 10), (2, 20)]), .req 0 (.mtrSet 2 1 [(3, 30), (3, 5)]), .req 0 (.mtrSet 2 1 [(3, 30)]),
   .pkt 0 (.meter 2 1 5000 100 0), .req 0 (.mtrGet 2 1), .req 0 (.mtrGet 2 0),
   .req 0 (.vsetAdd 3 [1, 2]), .req 0 (.vsetAdd 3 [3, 4]), .req 0 (.vsetRemove 3 [1, 2]), .req 0 (.vsetGet 3),
   .req 0 (.vsetClear 3), .resetState, .req 0 (.mtrGet 2 1), .req 0 (.cntRead 1 0), .req 0 (.regRead 0 2)]

example : AllFit natArith.gt ([d0].map start) h0 := by
  simp [AllFit, FitsEv, Fits, h0, nextEv, next, nextDp, start, d0, cxtOf, pos, Inside, Spec.Range, upd, Spec.put, keep,
    Accepts, Bursts, ascending, natArith, VSetS.bytes, RegS.fill, CntS.set]
  refine ⟨fun k _ => ?_, fun k _ => ?_, fun n a h v => ?_, ?_⟩
  · repeat' split
    all_goals omega
  · repeat' split
    all_goals omega
  · split at h
    · cases h; exact fun x => x
    · simp_all
  · simp [reset, upd]

/-- The replies; `conv0` is an example of a conversion. -/
example : (match run conv0 natArith [d0.init 0 0] h0 with | .ok (reps, _) => some reps | _ => none) =
    some [some .done, some (.val 255), none, some (.vals [0, 44, 255, 0]),
      some (.exc .regIndex), some .done, some (.vals [0, 7, 7, 0]), some (.exc .regName),
      some .undeclared, some .undeclared,
      some .done, none, some (.cnt 2 6), some (.exc .cntIndex),
      some .done, some .done, some (.exc .badRates),
      none, some (.rates [(3, 30), (3, 5)]), some (.rates [(1, 10), (2, 20)]),
      some .done, some .done, some .done, some (.bytes [[3, 4]]),
      some .done, some .done, some (.rates []), some (.cnt 0 0), some (.val 0)] := by
  decide +kernel

/-! ## Where it fails -/

/-- The full statement fails for a 64-bit register, whatever the conversion does: -1 is written, 2^64 - 1 is stored,
which no reply can say. -/
theorem C97_refuted_value (conv : Int → Int64) : ∃ d : Decl,
    ¬ Claim conv natArith 0 0 [d] [.req 0 (.regWrite 0 0 (-1)), .req 0 (.regRead 0 0)] := by
  refine ⟨⟨fun _ => some (1, 64), fun _ => none, fun _ => none, fun _ => none⟩, ?_⟩
  intro h
  obtain ⟨_, _, e1, _, _, _, e2, h2, _⟩ := h
  obtain ⟨T, x, hT, rfl, hs⟩ := h2
  simp only [nextEv, cxtOf, next, start, List.map_cons, List.map_nil, Option.map_some] at hT
  have hT : some _ = some T := hT
  cases hT
  obtain ⟨y, _, hy⟩ := hs
  have h1 := y.toInt_lt
  rw [hy] at h1
  revert h1
  decide +kernel

/-- The full statement fails for an array of size 0: the reply is that there is no array of this name. -/
theorem C97_refuted_empty : ∃ d : Decl, ¬ Claim conv0 natArith 0 0 [d] [.req 0 (.regReadAll 0)] := by
  refine ⟨⟨fun _ => some (0, 8), fun _ => none, fun _ => none, fun _ => none⟩, ?_⟩
  intro h
  obtain ⟨_, _, e1, h1, _⟩ := h
  cases e1
  obtain ⟨T, x, hT, e2, hs⟩ := h1
  cases hT
  cases e2
  obtain ⟨xs, e3, _⟩ := hs
  cases e3

/-- The full statement fails for rates that are refused: they have changed the meter. -/
theorem C97_refuted_rates : ¬ Claim conv0 natArith 0 0 [d0]
    [.req 0 (.mtrSet 2 0 [(1, 10), (2, 20)]), .req 0 (.mtrSet 2 0 [(5, 50), (3, 30)]), .req 0 (.mtrGet 2 0)] := by
  intro h
  obtain ⟨_, _, e1, _, _, _, e2, _, _, _, e3, h3, _⟩ := h
  cases e1
  cases e2
  cases e3
  obtain ⟨T, x, hT, e4, hs⟩ := h3
  cases hT
  cases e4
  simp [Says, start, next, d0, upd, Spec.put, Inside, pos, Accepts, Bursts, ascending, natArith] at hs
  revert hs
  decide +kernel

/-- The reply in the case above: neither the old nor the new rates. -/
example : (match run conv0 natArith [d0.init 0 0]
      [.req 0 (.mtrSet 2 0 [(1, 10), (2, 20)]), .req 0 (.mtrSet 2 0 [(5, 50), (3, 30)]), .req 0 (.mtrGet 2 0)] with
    | .ok (reps, _) => some reps | _ => none) =
    some [some .done, some (.exc .infoRate), some (.rates [(3, 30), (5, 50)])] := by
  decide +kernel

/-- The full statement fails for a negative burst size: it is accepted (and means 2^64 - 1 or so). -/
theorem C97_refuted_burst : ¬ Claim conv0 natArith 0 0 [d0] [.req 0 (.mtrSet 2 0 [(1, -1), (2, 20)])] := by
  intro h
  obtain ⟨_, _, e1, h1, _⟩ := h
  cases e1
  obtain ⟨T, x, hT, e2, hs⟩ := h1
  cases hT
  cases e2
  simp [Says, start, d0, Inside, pos, Accepts, Bursts, whyNot, finish, mtrExc] at hs

/-- The full statement fails for a value of the wrong size: the server is gone. -/
theorem C97_refuted_crash : ¬ Claim conv0 natArith 0 0 [d0] [.req 0 (.vsetAdd 3 [1])] := fun h => h

/-- The full statement fails for a reset: the value sets keep their values. -/
theorem C97_refuted_reset : ¬ Claim conv0 natArith 0 0 [d0] [.req 0 (.vsetAdd 3 [1, 2]), .resetState, .req 0 (.vsetGet 3)] := by
  intro h
  obtain ⟨_, _, e1, _, _, _, e2, _, _, _, e3, h3, _⟩ := h
  cases e1
  cases e2
  cases e3
  obtain ⟨T, x, hT, e4, hs⟩ := h3
  cases hT
  cases e4
  obtain ⟨l, e5, _, hl⟩ := hs
  cases e5
  exact (hl [1, 2]).1 (by decide +kernel)

end Bm.ThriftExt
