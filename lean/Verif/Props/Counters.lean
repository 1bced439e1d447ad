import Verif.Lemmas.Counters

/-!
# Properties of counter arrays

Full statement of C86: whatever threads count, read, write and reset at the same time, it is as if the calls came one
after the other: a packet counted adds one packet and its length to the counter of its index and to no other, an index
outside of the array changes nothing, and a query reads the packets and bytes of the same packets.

The code does not do this: bytes and packets are two variables.  A query can read the bytes of a packet without the
packet (`C86_refuted_query`), and resetting while a packet is counted leaves a packet without its bytes
(`C86_refuted_reset`); no order of the calls gives these results.  An index of more than 32 bits is cut and can name a
counter (`C86_refuted_index`).

`C86_partial`: each of the two variables by itself is as if the operations came one after the other, in an order that
keeps the order of every thread.  `C86_total`: nothing is lost or counted twice.  `C86_alone`, `C86_sequential`:
operations that are not disturbed are exact.  `C86_index_partial`: indices of up to 32 bits.
-/

namespace Bm.Counters

open Bm.Counters.Spec

/-- For each of the two variables there is an order of all operations that keeps the order of each thread and gives the
final values and everything that was read; nothing outside of the array is accessed. -/
theorem C86_partial (conv : Int → Nat) (cs : List Counter) (ths : List (List Call)) (ms : List (Half × Op))
    (hi : Interleave (ths.map (threadSteps conv cs.length)) ms) :
    ∃ cs' rd, run cs ms = some (cs', rd) ∧ cs'.length = cs.length ∧ ∀ h : Half, ∃ order,
      Interleave (ths.map (threadOps conv cs.length)) order ∧
      (∀ i (c c' : Counter), cs[i]? = some c → cs'[i]? = some c' → half h c' = value h i (half h c) order) ∧
      ∀ v : Nat → Nat, (∀ i (c : Counter), cs[i]? = some c → half h c = v i) →
        (rd.filterMap fun x => if x.2.1 = h then some (x.1, x.2.2) else none) = reads h v order := by
  have hlt : ∀ x ∈ ms, x.2.idx < cs.length := by
    intro x hx
    obtain ⟨l, hl, hxl⟩ := interleave_mem hi x hx
    rw [List.mem_map] at hl
    obtain ⟨cl, _, rfl⟩ := hl
    exact steps_lt conv _ cl x hxl
  obtain ⟨cs', rd, hr, hlen, h1, h2⟩ := run_half .bytes ms cs hlt
  obtain ⟨cs'', rd', hr', _, h1', h2'⟩ := run_half .packets ms cs hlt
  rw [hr] at hr'
  simp only [Option.some.injEq, Prod.mk.injEq] at hr'
  obtain ⟨rfl, rfl⟩ := hr'
  refine ⟨cs', rd, hr, hlen, fun h => ⟨ms.filterMap (sel h), interleave_ops h conv _ ths ms hi, ?_⟩⟩
  cases h
  · exact ⟨h1, h2⟩
  · exact ⟨h1', h2'⟩

/-- As long as nobody writes or resets, a counter ends with what it had and what all threads counted. -/
theorem C86_total (conv : Int → Nat) (hconv : ConvOk conv) (cs : List Counter) (ths : List (List Call))
    (ms : List (Half × Op)) (hi : Interleave (ths.map (threadSteps conv cs.length)) ms)
    (hc : ∀ t ∈ ths, CountsOnly t) (hb : ∀ c ∈ cs, c.bytes < 2 ^ 64 ∧ c.packets < 2 ^ 64) :
    ∃ (cs' : List Counter) (rd : List (Nat × Half × Nat)), run cs ms = some (cs', rd) ∧
      ∀ (i : Nat) (c : Counter), cs[i]? = some c → cs'[i]? = some (⟨(c.bytes + (ths.map fun t => (total i t).1).sum) % 2 ^ 64,
       (c.packets + (ths.map fun t => (total i t).2).sum) % 2 ^ 64⟩ : Counter) := by
  obtain ⟨cs', rd, hr, hlen, hord⟩ := C86_partial conv cs ths ms hi
  refine ⟨cs', rd, hr, fun i c hci => ?_⟩
  have hin : i < cs.length := by
    rw [List.getElem?_eq_some_iff] at hci
    exact hci.1
  have hget' : cs'[i]? = some (cs'[i]'(by omega)) := List.getElem?_eq_getElem (by omega)
  have hcm : c ∈ cs := List.mem_of_getElem? hci
  have key : ∀ h : Half, half h (cs'[i]'(by omega)) =
      (half h c + (ths.map fun t => opSum h i (threadOps conv cs.length t)).sum) % 2 ^ 64 := by
    intro h
    obtain ⟨order, hint, hval, _⟩ := hord h
    rw [hval i c _ hci hget', value_counts h i order _ ?_ ?_, opSum_interleave h i hint, List.map_map]
    · rfl
    · cases h
      · exact (hb c hcm).1
      · exact (hb c hcm).2
    · intro o ho
      obtain ⟨l, hl, hol⟩ := interleave_mem hint o ho
      rw [List.mem_map] at hl
      obtain ⟨t, ht, rfl⟩ := hl
      exact countsOnly_ops conv _ t (hc t ht) o hol
  have e1 : (ths.map fun t => opSum .bytes i (threadOps conv cs.length t)) = ths.map fun t => (total i t).1 :=
    List.map_congr_left fun t ht => (opSum_total conv hconv _ i hin t (hc t ht)).1
  have e2 : (ths.map fun t => opSum .packets i (threadOps conv cs.length t)) = ths.map fun t => (total i t).2 :=
    List.map_congr_left fun t ht => (opSum_total conv hconv _ i hin t (hc t ht)).2
  have k1 := key .bytes
  have k2 := key .packets
  rw [e1] at k1
  rw [e2] at k2
  rw [hget', Option.some.injEq]
  generalize cs'[i]'(by omega) = c' at k1 k2
  cases c'
  simp only [half] at k1 k2
  rw [k1, k2]

/-- Operations that do not overlap: both variables follow the same order, so that queries read both values of the
same moment. -/
theorem C86_sequential (cs : List Counter) (os : List Op) (hlt : ∀ o ∈ os, o.idx < cs.length) :
    ∃ cs' rd, run cs (os.flatMap Op.steps) = some (cs', rd) ∧ cs'.length = cs.length ∧ ∀ h : Half,
      (∀ i (c c' : Counter), cs[i]? = some c → cs'[i]? = some c' → half h c' = value h i (half h c) os) ∧
      ∀ v : Nat → Nat, (∀ i (c : Counter), cs[i]? = some c → half h c = v i) →
        (rd.filterMap fun x => if x.2.1 = h then some (x.1, x.2.2) else none) = reads h v os := by
  have hlt' : ∀ x ∈ os.flatMap Op.steps, x.2.idx < cs.length := by
    intro x hx
    rw [List.mem_flatMap] at hx
    obtain ⟨o, ho, hx⟩ := hx
    simp only [Op.steps, List.mem_cons, List.not_mem_nil, or_false] at hx
    rcases hx with rfl | rfl <;> exact hlt o ho
  obtain ⟨cs', rd, hr, hlen, h1, h2⟩ := run_half .bytes _ cs hlt'
  obtain ⟨cs'', rd', hr', _, h1', h2'⟩ := run_half .packets _ cs hlt'
  rw [hr] at hr'
  simp only [Option.some.injEq, Prod.mk.injEq] at hr'
  obtain ⟨rfl, rfl⟩ := hr'
  rw [sel_steps] at h1 h2 h1' h2'
  refine ⟨cs', rd, hr, hlen, fun h => ?_⟩
  cases h
  · exact ⟨h1, h2⟩
  · exact ⟨h1', h2'⟩

/-- An operation that is not disturbed is exact: it changes its counter only, as asked, and reads both values of the
same moment. -/
theorem C86_alone (cs : List Counter) (o : Op) (c : Counter) (hc : cs[o.idx]? = some c) :
    run cs o.steps = some
      (match o with
       | .inc i len => (cs.set i ⟨(c.bytes + len) % 2 ^ 64, (c.packets + 1) % 2 ^ 64⟩, [])
       | .set i b p => (cs.set i ⟨b, p⟩, [])
       | .get q _ => (cs, [(q, .bytes, c.bytes), (q, .packets, c.packets)])) := by
  have hlt : o.idx < cs.length := by rw [List.getElem?_eq_some_iff] at hc; exact hc.1
  cases o with
  | inc i len =>
    simp only [Op.idx] at hc hlt
    simp [run, Op.steps, Op.idx, hc, Counter.step, Counter.read, List.getElem?_set_self hlt]
  | set i b p =>
    simp only [Op.idx] at hc hlt
    simp [run, Op.steps, Op.idx, hc, Counter.step, Counter.read, List.getElem?_set_self hlt]
  | get q i =>
    simp only [Op.idx] at hc hlt
    have hs : cs.set i c = cs := by
      apply List.ext_getElem?
      intro j
      by_cases hj : i = j
      · subst hj; rw [List.getElem?_set_self hlt, hc]
      · rw [List.getElem?_set_ne hj]
    simp [run, Op.steps, Op.idx, hc, Counter.step, Counter.read, hs]

/-- `count` with an index of up to 32 bits counts at this index, or nothing if the array is smaller. -/
theorem C86_index_partial (conv : Int → Nat) (hconv : ConvOk conv) (n len : Nat) (idx : Int) (h0 : 0 ≤ idx)
    (h1 : idx < 2 ^ 32) :
    Call.ops conv n (.count idx len) = if idx < n then [.inc idx.toNat len] else [] := by
  have hk := hconv.keeps idx h0 h1
  simp only [Call.ops]
  by_cases h : idx < n
  · rw [if_pos (by omega), if_pos h]
    congr 2
    omega
  · rw [if_neg (by omega), if_neg h]

/-- However numbers that do not fit are converted: there is an array of at most `2 ^ 32` counters of which one is
counted for index `2 ^ 32`. -/
theorem C86_refuted_index (conv : Int → Nat) (hconv : ConvOk conv) (len : Nat) :
    ∃ n, n ≤ 2 ^ 32 ∧ Call.ops conv n (.count (2 ^ 32) len) ≠ [] := by
  have := hconv.fits (2 ^ 32)
  refine ⟨conv (2 ^ 32) + 1, by omega, ?_⟩
  simp only [Call.ops]
  rw [if_pos (by omega)]
  simp

namespace Ex

/-- Conversion by cutting. -/
def cut (v : Int) : Nat := (v % 2 ^ 32).toNat

/-- It is possible. -/
theorem cut_ok : ConvOk cut := by
  refine ⟨fun v h0 h1 => ?_, fun v => ?_⟩
  · simp only [cut]; omega
  · simp only [cut]; omega

/-- Two threads count at the same index, another reads: the steps in some order. -/
def steps : List (Half × Op) :=
  [(.bytes, .inc 1 100), (.bytes, .inc 1 64), (.packets, .inc 1 64), (.bytes, .get 7 1), (.packets, .inc 1 100),
   (.packets, .get 7 1)]

/-- It is an order of the steps of three threads. -/
theorem steps_interleave :
    Interleave (([[.count 1 100], [.count 1 64, .count 5 9], [.read 7 1]] : List (List Call)).map
      (threadSteps cut 2)) steps := by
  have e : ([[.count 1 100], [.count 1 64, .count 5 9], [.read 7 1]] : List (List Call)).map (threadSteps cut 2) =
      [[(.bytes, .inc 1 100), (.packets, .inc 1 100)], [(.bytes, .inc 1 64), (.packets, .inc 1 64)],
       [(.bytes, .get 7 1), (.packets, .get 7 1)]] := by decide
  rw [e]
  refine .cons [] _ _ _ _ ?_
  refine .cons [_] _ _ _ _ ?_
  refine .cons [_] _ _ _ _ ?_
  refine .cons [_, _] _ _ _ _ ?_
  refine .cons [] _ _ _ _ ?_
  refine .cons [_, _] _ _ _ _ ?_
  exact .nil 3

/-- The totals are right (`C86_total`). -/
theorem C86_total_case : run [⟨0, 0⟩, ⟨10, 1⟩] steps =
    some ([⟨0, 0⟩, ⟨174, 3⟩], [(7, .bytes, 174), (7, .packets, 3)]) := by decide

/-- A query reads the bytes of a packet, but not the packet: no order of the two calls gives this. -/
theorem C86_refuted_query :
    ∃ ms, Interleave (([[.count 0 100], [.read 7 0]] : List (List Call)).map (threadSteps cut 1)) ms ∧
      run [⟨0, 0⟩] ms = some ([⟨100, 1⟩], [(7, .bytes, 100), (7, .packets, 0)]) ∧
      run [⟨0, 0⟩] (Op.steps (.inc 0 100) ++ Op.steps (.get 7 0)) =
        some ([⟨100, 1⟩], [(7, .bytes, 100), (7, .packets, 1)]) ∧
      run [⟨0, 0⟩] (Op.steps (.get 7 0) ++ Op.steps (.inc 0 100)) =
        some ([⟨100, 1⟩], [(7, .bytes, 0), (7, .packets, 0)]) := by
  refine ⟨[(.bytes, .inc 0 100), (.bytes, .get 7 0), (.packets, .get 7 0), (.packets, .inc 0 100)], ?_, by decide,
    by decide, by decide⟩
  have e : ([[.count 0 100], [.read 7 0]] : List (List Call)).map (threadSteps cut 1) =
      [[(.bytes, .inc 0 100), (.packets, .inc 0 100)], [(.bytes, .get 7 0), (.packets, .get 7 0)]] := by decide
  rw [e]
  refine .cons [] _ _ _ _ ?_
  refine .cons [_] _ _ _ _ ?_
  refine .cons [_] _ _ _ _ ?_
  refine .cons [] _ _ _ _ ?_
  exact .nil 2

/-- A reset while a packet is counted: one packet with no bytes; no order of the two calls gives this, and it stays. -/
theorem C86_refuted_reset :
    ∃ ms, Interleave (([[.count 0 100], [.reset]] : List (List Call)).map (threadSteps cut 1)) ms ∧
      run [⟨5, 5⟩] ms = some ([⟨0, 1⟩], []) ∧
      run [⟨5, 5⟩] (Op.steps (.inc 0 100) ++ Op.steps (.set 0 0 0)) = some ([⟨0, 0⟩], []) ∧
      run [⟨5, 5⟩] (Op.steps (.set 0 0 0) ++ Op.steps (.inc 0 100)) = some ([⟨100, 1⟩], []) := by
  refine ⟨[(.bytes, .inc 0 100), (.bytes, .set 0 0 0), (.packets, .set 0 0 0), (.packets, .inc 0 100)], ?_, by decide,
    by decide, by decide⟩
  have e : ([[.count 0 100], [.reset]] : List (List Call)).map (threadSteps cut 1) =
      [[(.bytes, .inc 0 100), (.packets, .inc 0 100)], [(.bytes, .set 0 0 0), (.packets, .set 0 0 0)]] := by decide
  rw [e]
  refine .cons [] _ _ _ _ ?_
  refine .cons [_] _ _ _ _ ?_
  refine .cons [_] _ _ _ _ ?_
  refine .cons [] _ _ _ _ ?_
  exact .nil 2

/-- Calls outside of the array do nothing, calls inside do. -/
theorem C86_bounds : Call.ops cut 2 (.read 3 2) = [] ∧ Call.ops cut 2 (.write 1 8 9) = [.set 1 8 9] ∧
    Call.ops cut 2 (.write 2 8 9) = [] ∧ Call.ops cut 2 .reset = [.set 0 0 0, .set 1 0 0] := by decide

end Ex

end Bm.Counters
