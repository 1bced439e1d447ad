import Verif.Lemmas.QueueingRL
import Verif.Props.Queueing

/-!
# C103: the egress queues of psa_switch
-/

namespace Bm.QueueingRL
open Bm.Queueing (Res accepted departed grants Follows Spaced OnTime emptyLines after)

variable {T : Type}

/-- A history as one of waiting lines with the single priority 0. -/
abbrev lined (t : List (Op T × Res T)) : List (Queueing.Op T × Res T) := t.map fun x => (x.1.pri, x.2)

theorem as_pri (F : Fixed) (capacity : Nat) (ops : List (Op T)) :
    ∃ u, Queueing.run F.pri (Queueing.init capacity) (ops.map Op.pri)
      = some (lined (run F (init capacity) ops).1, u) := by
  obtain ⟨u, h, _⟩ := (sim_init (T := T) capacity).run (F := F) ops
  exact ⟨u, h⟩

/-- **C103.** Every history of calls of the egress queues of psa_switch returns what `QueueingLogicPriRL` with a single
priority returns. -/
theorem C103_refines (F : Fixed) (capacity : Nat) (ops : List (Op T)) :
    ∃ u, Queueing.run F.pri (Queueing.init capacity) (ops.map Op.pri)
      = some (lined (run F (init capacity) ops).1, u) := as_pri F capacity ops

/-- **C103**, depth and order of service: each call returns what the waiting lines require. -/
theorem C103_depth (F : Fixed) (capacity : Nat) (ops : List (Op T)) (hn : ops.length < 2 ^ 64) :
    Follows F.pri (emptyLines F.pri capacity) (lined (run F (init capacity) ops).1) := by
  obtain ⟨u, h⟩ := as_pri F capacity ops
  obtain ⟨t, s, h1, _, h3⟩ := Queueing.C26_priority_and_depth (F := F.pri) (by simp [Fixed.pri]) capacity
    (ops.map Op.pri) (by simpa using hn)
  rw [h] at h1
  obtain ⟨rfl, _⟩ := Prod.mk.inj (Option.some.inj h1)
  exact h3

/-- **C103**, nothing is lost or duplicated, and elements leave their queue in the order in which they were accepted. -/
theorem C103_fifo (F : Fixed) (capacity : Nat) (ops : List (Op T)) (hn : ops.length < 2 ^ 64) (q : Nat) :
    let t := lined (run F (init capacity) ops).1
    accepted q 0 t = (departed q 0 t).map Prod.fst ++
      ((after F.pri (emptyLines F.pri capacity) t).line q 0).map Prod.fst := by
  obtain ⟨u, h⟩ := as_pri F capacity ops
  exact Queueing.C26_conservation (F := F.pri) (by simp [Fixed.pri]) capacity (ops.map Op.pri) (by simpa using hn) h q 0

/-- **C103**, rate: departure times are at least one service interval apart and nothing leaves before its time. -/
theorem C103_rate (F : Fixed) (capacity : Nat) (ops : List (Op T)) (hn : ops.length < 2 ^ 64) (q : Nat) :
    let t := lined (run F (init capacity) ops).1
    (grants F.pri q 0 (emptyLines F.pri capacity) t).map (·.x) = accepted q 0 t ∧
    Spaced none (grants F.pri q 0 (emptyLines F.pri capacity) t) ∧
    OnTime (departed q 0 t) ((grants F.pri q 0 (emptyLines F.pri capacity) t).map fun g => (g.x, g.time)) := by
  obtain ⟨u, h⟩ := as_pri F capacity ops
  exact Queueing.C25_rate (F := F.pri) (by simp [Fixed.pri]) capacity (ops.map Op.pri) (by simpa using hn) h q 0

/-- Two workers; rates in elements per second. -/
def demoRL : Fixed := { nbWorkers := 2, worker := fun q => q % 2, ticks := fun r => 1000 / r }

/-- A case for C103: depth, rate, two queues of a worker, a worker that has nothing to do, a clock that goes back, a
queue whose worker does not exist. -/
example : ((run demoRL (init 2) [.setRate 7 10 0, .push 7 'a' 0 0, .push 7 'b' 0 0, .push 7 'c' 0 0, .push 9 'd' 0 150,
    .push 9 'e' 0 150, .size 7, .pop 0 500, .pop 1 120, .pop 1 100, .setCapAll 1, .push 9 'f' 0 150, .pop 1 150,
    .pop 1 199, .pop 1 200, .pop 1 300, .size 7, .pop 2 0]).1.map Prod.snd)
    = [.done, .accepted, .accepted, .refused, .accepted, .accepted, .size 2, .blocked, .item 7 0 'a', .blocked, .done,
       .refused, .item 9 0 'd', .item 9 0 'e', .item 7 0 'b', .blocked, .size 0, .throws] := by decide +kernel

end Bm.QueueingRL
