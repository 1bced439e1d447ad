import Verif.Lemmas.EgressThreads
import Verif.Props.QueueingRL

/-!
# C104: no wake-up is lost on egress queues
-/

namespace Bm.EgressThreads
open Bm.Queueing (Res accepted departed emptyLines after)
open Bm.Spec.Queueing Bm.EgressThreads.Spec

variable {T : Type}

/-- **C104**, order of calls: whatever the threads do, the calls in the order in which they hold the mutex are a history
of calls, to which C25 and C26 apply. -/
theorem C104_serial {F : Queueing.Fixed} (capacity n : Nat) {ls : List (Label (Queueing.Op T))}
    {s : Sys (Queueing.State T)} {es : List (Queueing.Op T × Res T)}
    (h : (start (Queueing.init capacity) n).run (pri F) ls = some (s, es)) :
    Queueing.run F (Queueing.init capacity) (es.map Prod.fst) = some (es, s.obj) := serial ls _ _ _ h

theorem reach {F : Queueing.Fixed} (hpri : F.nbPri ≤ 32) {own : Nat → Nat} (capacity n : Nat)
    {ls : List (Label (Queueing.Op T))} {s : Sys (Queueing.State T)} {es : List (Queueing.Op T × Res T)}
    (h : (start (Queueing.init capacity) n).run (pri F) ls = some (s, es)) (hown : ∀ l ∈ ls, Owned own l)
    (hn : es.length < 2 ^ 64) :
    Inv F own s ∧ Queueing.Rep F es.length s.obj (after F (emptyLines F capacity) es) := by
  have := inv_run hpri ls _ s es 0 _ h hown (inv_start _ n) (Queueing.rep_init F capacity) (by omega)
  simpa using this

theorem served_of {F : Queueing.Fixed} (hpri : F.nbPri ≤ 32) {own : Nat → Nat} {n : Nat}
    {s : Sys (Queueing.State T)} {L : Lines T} (hi : Inv F own s) (hr : Queueing.Rep F n s.obj L) (hn : n + 1 < 2 ^ 64)
    {i w q p : Nat} {d : Option Int} {now now' : Int} (ht : s.threads[i]? = some (.asleep w d)) (hw : F.worker q = w)
    (hrdy : L.Ready q p now) (hnow : now ≤ now') :
    ∃ q' p' x, Served (pri F) s i w now now' q' p' x ∧ L.Next (fun q => F.worker q = w) now' q' p' x := by
  obtain ⟨x, t, hm, htn⟩ := hrdy
  obtain ⟨e, he, h1, rfl, rfl⟩ := hr.mem_line.1 hm
  rw [hw] at he
  obtain ⟨d', rfl, hd⟩ := hi.alarm w d (List.mem_iff_getElem?.2 ⟨i, ht⟩) p e he
  have hlt : i < s.threads.length := (List.getElem?_eq_some_iff.1 ht).1
  have hring : s.step (pri F) (.ring i now) = some (s.move i (.popping w), []) := by
    simp only [Sys.step, ht]
    rw [if_pos (by omega)]
  obtain ⟨r, o, hx, hok, _⟩ := hr.exec hn hpri (.pop w now')
  have hget : (s.move i (.popping w)).threads[i]? = some (.popping w) := by
    simp [Sys.move, hlt]
  rcases hok with ⟨_, hbad⟩ | ⟨_, ⟨_, hno⟩ | ⟨q', p', x, rfl, hnext⟩⟩
  · exact absurd (hr.mine w p e he).2.1 (by omega)
  · exact absurd ⟨_, _, hm, by omega⟩ (hno q p hw)
  · refine ⟨q', p', x, ⟨_, { s.move i (.popping w) with obj := o }.move i .idle, hring, ?_⟩, hnext⟩
    have hx' : (pri F).exec (s.move i (.popping w)).obj ((pri F : Buf T _ _).pop w now') = some (.item q' p' x, o) := hx
    simp only [Sys.step, hget, hx']

/-- **C104 (partial).** If every worker is served by one thread only (as in simple_switch and psa_switch): whenever a
thread sleeps in `pop_back` and an element of its worker has reached its time, the time the thread waits for has
come too, and when it goes on it gets an element: the first of a ready line of the highest priority having one, with
the earliest time.

Full statement: without the condition on threads.  It is refuted by `C104_refuted`. -/
theorem C104_woken_partial {F : Queueing.Fixed} (hpri : F.nbPri ≤ 32) {own : Nat → Nat} (capacity n : Nat)
    {ls : List (Label (Queueing.Op T))} {s : Sys (Queueing.State T)} {es : List (Queueing.Op T × Res T)}
    (h : (start (Queueing.init capacity) n).run (pri F) ls = some (s, es)) (hown : ∀ l ∈ ls, Owned own l)
    (hn : es.length + 1 < 2 ^ 64) {i w q p : Nat} {d : Option Int} {now now' : Int}
    (ht : s.threads[i]? = some (.asleep w d)) (hw : F.worker q = w)
    (hrdy : (after F (emptyLines F capacity) es).Ready q p now) (hnow : now ≤ now') :
    ∃ q' p' x, Served (pri F) s i w now now' q' p' x ∧
      (after F (emptyLines F capacity) es).Next (fun q => F.worker q = w) now' q' p' x := by
  obtain ⟨hi, hr⟩ := reach hpri capacity n h hown (by omega)
  exact served_of hpri hi hr (by omega) ht hw hrdy hnow

/-- **C104 (partial)**, for accepted elements, among them the null pointers by which simple_switch ends its threads: an
element that was accepted has been handed over, or it waits in its line and its thread, should it be asleep, gets an
element as soon as the time of this one has come. -/
theorem C104_accepted_partial {F : Queueing.Fixed} (hpri : F.nbPri ≤ 32) {own : Nat → Nat} (capacity n : Nat)
    {ls : List (Label (Queueing.Op T))} {s : Sys (Queueing.State T)} {es : List (Queueing.Op T × Res T)}
    (h : (start (Queueing.init capacity) n).run (pri F) ls = some (s, es)) (hown : ∀ l ∈ ls, Owned own l)
    (hn : es.length + 1 < 2 ^ 64) {q p : Nat} {x : T} (hx : x ∈ accepted q p es) :
    (∃ t, (x, t) ∈ departed q p es) ∨
    ∃ t, (x, t) ∈ (after F (emptyLines F capacity) es).line q p ∧
      ∀ i d now, s.threads[i]? = some (.asleep (F.worker q) d) → t ≤ now →
        ∃ q' p' y, Served (pri F) s i (F.worker q) now now q' p' y := by
  rw [Queueing.C26_conservation hpri capacity (es.map Prod.fst) (by simp; omega) (C104_serial capacity n h) q p,
    List.mem_append, List.mem_map, List.mem_map] at hx
  rcases hx with ⟨⟨_, t⟩, hm, rfl⟩ | ⟨⟨_, t⟩, hm, rfl⟩
  · exact .inl ⟨t, hm⟩
  · refine .inr ⟨t, hm, fun i d now ht hnow => ?_⟩
    obtain ⟨q', p', y, h1, _⟩ := C104_woken_partial hpri capacity n h hown hn ht rfl ⟨_, t, hm, hnow⟩ (le_refl now)
    exact ⟨q', p', y, h1⟩

/-- **C104**, a thread that is awake in `pop_back` can go on. -/
theorem C104_progress {F : Queueing.Fixed} (hpri : F.nbPri ≤ 32) {own : Nat → Nat} (capacity n : Nat)
    {ls : List (Label (Queueing.Op T))} {s : Sys (Queueing.State T)} {es : List (Queueing.Op T × Res T)}
    (h : (start (Queueing.init capacity) n).run (pri F) ls = some (s, es)) (hown : ∀ l ∈ ls, Owned own l)
    (hn : es.length + 1 < 2 ^ 64) {i w : Nat} (ht : s.threads[i]? = some (.popping w)) (now : Int) :
    ∃ r, s.step (pri F) (.test i now) = some r := by
  obtain ⟨_, hr⟩ := reach hpri capacity n h hown (by omega)
  obtain ⟨r, o, hx, _⟩ := hr.exec (by omega) hpri (.pop w now)
  have hx' : (pri F).exec s.obj ((pri F : Buf T _ _).pop w now) = some (r, o) := hx
  simp only [Sys.step, ht, hx']
  cases r <;> exact ⟨_, rfl⟩

/-! ## psa_switch -/

theorem same_start (capacity n : Nat) :
    Same (start (QueueingRL.init capacity : QueueingRL.State T) n) (start (Queueing.init capacity) n) :=
  ⟨QueueingRL.sim_init capacity, rfl⟩

/-- **C104**, order of calls, for the queues of psa_switch. -/
theorem C104_serial_rl {F : QueueingRL.Fixed} (capacity n : Nat) {ls : List (Label (QueueingRL.Op T))}
    {s : Sys (QueueingRL.State T)} {es : List (QueueingRL.Op T × Res T)}
    (h : (start (QueueingRL.init capacity) n).run (rl F) ls = some (s, es)) :
    QueueingRL.run F (QueueingRL.init capacity) (es.map Prod.fst) = (es, s.obj) := serialRL ls _ _ _ h

/-- **C104 (partial)** for the queues of psa_switch. -/
theorem C104_woken_rl_partial {F : QueueingRL.Fixed} {own : Nat → Nat} (capacity n : Nat)
    {ls : List (Label (QueueingRL.Op T))} {s : Sys (QueueingRL.State T)} {es : List (QueueingRL.Op T × Res T)}
    (h : (start (QueueingRL.init capacity) n).run (rl F) ls = some (s, es)) (hown : ∀ l ∈ ls, Owned own l)
    (hn : es.length + 1 < 2 ^ 64) {i w q : Nat} {d : Option Int} {now now' : Int}
    (ht : s.threads[i]? = some (.asleep w d)) (hw : F.worker q = w)
    (hrdy : (after F.pri (emptyLines F.pri capacity) (QueueingRL.lined es)).Ready q 0 now) (hnow : now ≤ now') :
    ∃ q' p' x, Served (rl F) s i w now now' q' p' x ∧
      (after F.pri (emptyLines F.pri capacity) (QueueingRL.lined es)).Next (fun q => F.worker q = w) now' q' p' x := by
  obtain ⟨u, hu, hsame⟩ := Same.run ls (same_start capacity n) h
  have hown' : ∀ l ∈ ls.map Label.pri, Owned own l := by
    intro l hl
    obtain ⟨l', hl', rfl⟩ := List.mem_map.1 hl
    have := hown l' hl'
    cases l' <;> exact this
  have ht' : u.threads[i]? = some (.asleep w d) := by rw [hsame.threads]; exact ht
  obtain ⟨q', p', x, ⟨u1, u2, h1, h2⟩, hnext⟩ := C104_woken_partial (F := F.pri) (by simp [QueueingRL.Fixed.pri])
    capacity n hu hown' (by simpa using hn) ht' hw hrdy hnow
  refine ⟨q', p', x, ?_, hnext⟩
  -- the same steps on the queues of psa_switch
  have hst := stepped h1
  cases hst with
  | @ring _ w' d' _ hi hd =>
    rw [hsame.threads] at hi
    obtain ⟨rfl, rfl⟩ : w = w' ∧ d = some d' := by rw [ht] at hi; simpa using hi
    have hs1 : s.step (rl F) (.ring i now) = some (s.move i (.popping w), []) := by
      simp only [Sys.step, ht]
      rw [if_pos hd]
    have hlt : i < s.threads.length := (List.getElem?_eq_some_iff.1 ht).1
    have hget : (s.move i (.popping w)).threads[i]? = some (.popping w) := by simp [Sys.move, hlt]
    have hs2 : ∃ s2 es2, (s.move i (.popping w)).step (rl F) (.test i now') = some (s2, es2) := by
      simp only [Sys.step, hget, rl]
      generalize QueueingRL.exec F _ _ = ro
      obtain ⟨r, o⟩ := ro
      cases r <;> exact ⟨_, _, rfl⟩
    obtain ⟨s2, es2, hs2⟩ := hs2
    have hsame1 : Same (s.move i (.popping w)) (u.move i (.popping w)) := ⟨hsame.sim, by simp [Sys.move, hsame.threads]⟩
    obtain ⟨u3, h3, _⟩ := hsame1.step hs2
    have h3' : (u.move i (.popping w)).step (pri F.pri) (.test i now') = some (u3, priEvents es2) := h3
    rw [h2] at h3'
    have hev := (Prod.mk.inj (Option.some.inj h3')).2
    refine ⟨_, s2, hs1, ?_⟩
    rw [hs2]
    cases stepped hs2 with
    | @blocked _ w1 _ o hi hx =>
      simp [priEvents] at hev
    | @popped _ w1 _ r o hi hx =>
      rw [hget] at hi
      obtain rfl : w = w1 := by simpa using hi
      simp only [priEvents, List.map_cons, List.map_nil, List.cons.injEq, Prod.mk.injEq, and_true] at hev
      rw [← hev.2]

/-! ## Cases -/

/-- Two workers with one thread each, two priorities; rates in elements per second. -/
def demoT : Queueing.Fixed := { nbWorkers := 2, nbPri := 2, worker := fun q => q % 2, ticks := fun r => 1000 / r }

/-- Thread 0 waits for an element, is woken, waits for its time, is woken by an element of higher priority, takes it, and
is asleep again. -/
def demoLs : List (Label (Queueing.Op Nat)) :=
  [.call (.setRate 2 10 0) none, .callPop 0 0, .test 0 0, .callPop 1 1, .test 1 0, .call (.push 2 0 7 0 0) (some 0),
   .test 0 50, .spurious 0, .test 0 60, .call (.push 4 1 8 60 60) (some 0), .test 0 61, .callPop 0 0, .test 0 62]

/-- A case for C104: the element of queue 2 is ready at time 100, thread 0 is asleep. -/
example : ((start (Queueing.init 3) 2).run (pri demoT) demoLs).map (fun x => (x.1.threads, x.2.map Prod.snd,
      (after demoT (emptyLines demoT 3) x.2).line 2 0))
    = some ([.asleep 0 (some 100), .asleep 1 none],
        [.done, .blocked, .blocked, .accepted, .blocked, .blocked, .accepted, .item 4 1 8, .blocked], [(7, 100)]) := by
  decide +kernel

example : ∀ l ∈ demoLs, Owned (fun w => w) l := by
  simp [demoLs, Owned]

/-- The same threads on the queues of psa_switch. -/
example : ((start (QueueingRL.init 3) 2).run (rl QueueingRL.demoRL) [.call (.setRate 2 10 0) none, .callPop 0 0,
      .test 0 0, .call (.push 2 7 0 0) (some 0), .test 0 50, .ring 0 100, .test 0 99, .call (.push 4 8 60 60) (some 0),
      .test 0 61]).map (fun x => (x.1.threads, x.2.map Prod.snd))
    = some ([.idle, .idle], [.done, .blocked, .accepted, .blocked, .blocked, .accepted, .item 4 0 8]) := by
  decide +kernel

/-- Two threads for one worker: thread 0 waits for the time of the first element, and is woken again by the second
one; it takes the first one and leaves.  Thread 1 sleeps on although the second one has reached its time. -/
def twoLs : List (Label (Queueing.Op Nat)) :=
  [.call (.setRate 0 10 0) none, .callPop 0 0, .test 0 0, .callPop 1 0, .test 1 0, .call (.push 0 0 7 0 0) (some 0),
   .test 0 0, .call (.push 0 0 8 0 0) (some 0), .test 0 0, .ring 0 100, .test 0 100]

/-- **C104**, refutation of the full statement: with two threads for one worker, an element may wait although its time has
come and a thread sleeps that wants it. -/
theorem C104_refuted : ¬ ∀ (F : Queueing.Fixed) (capacity n : Nat) (ls : List (Label (Queueing.Op Nat)))
    (s : Sys (Queueing.State Nat)) (es : List (Queueing.Op Nat × Res Nat)), F.nbPri ≤ 32 →
    (start (Queueing.init capacity) n).run (pri F) ls = some (s, es) → ∀ (i w q p : Nat) (d : Option Int) (now : Int),
    s.threads[i]? = some (.asleep w d) → F.worker q = w → (after F (emptyLines F capacity) es).Ready q p now →
    ∃ q' p' x, Served (pri F) s i w now now q' p' x := by
  intro hall
  have hd : ((start (Queueing.init 3) 2).run (pri demoT) twoLs).map (fun x => (x.1.threads,
      (after demoT (emptyLines demoT 3) x.2).line 0 0)) = some ([.idle, .asleep 0 none], [(8, 200)]) := by
    decide +kernel
  cases hr : (start (Queueing.init 3) 2).run (pri demoT) twoLs with
  | none => rw [hr] at hd; simp at hd
  | some x =>
    obtain ⟨s, es⟩ := x
    rw [hr] at hd
    simp only [Option.map_some, Option.some.injEq, Prod.mk.injEq] at hd
    have ht : s.threads[1]? = some (.asleep 0 none) := by rw [hd.1]; rfl
    obtain ⟨q', p', x, s1, s2, h1, _⟩ := hall demoT 3 2 twoLs s es (by decide) hr 1 0 0 0 none 1000 ht rfl
      ⟨8, 200, by rw [hd.2]; simp, by decide⟩
    simp [Sys.step, ht] at h1

/-- psa_switch is destroyed while queue 0 is full: the null pointer that should end the egress thread is refused
(`/repo/targets/psa_switch/psa_switch.cpp:221-235`); the thread takes the last packet and sleeps. -/
def psaLs : List (Label (QueueingRL.Op (Option Nat))) :=
  [.call (.push 0 (some 7) 0 0) none, .call (.push 0 none 0 0) none, .callPop 0 0, .test 0 1, .callPop 0 0, .test 0 1]

/-- **C104**, the threads of psa_switch need not end: the destructor has pushed its null pointer, the thread has not got
it, sleeps without a time, and nothing is in its queues. -/
theorem C104_psa_refuted : ∃ s es, (start (QueueingRL.init 1) 1).run (rl QueueingRL.demoRL) psaLs = some (s, es) ∧
    (∀ l ∈ psaLs, Owned (fun w => w) l) ∧ s.threads = [.asleep 0 none] ∧ Quiet s ∧
    (∀ x ∈ es, ∀ q p, x.2 ≠ .item q p none) ∧ (s.obj.workers 0).queue.length = 0 := by
  have hd : ((start (QueueingRL.init 1) 1).run (rl QueueingRL.demoRL) psaLs).map (fun x => (x.1.threads,
      x.2.map Prod.snd, (x.1.obj.workers 0).queue.length)) = some ([.asleep 0 none],
        [.accepted, .refused, .item 0 0 (some 7), .blocked], 0) := by
    decide +kernel
  cases hr : (start (QueueingRL.init 1) 1).run (rl QueueingRL.demoRL) psaLs with
  | none => rw [hr] at hd; simp at hd
  | some x =>
    obtain ⟨s, es⟩ := x
    rw [hr] at hd
    simp only [Option.map_some, Option.some.injEq, Prod.mk.injEq] at hd
    refine ⟨s, es, rfl, by simp [psaLs, Owned], hd.1, ?_, ?_, hd.2.2⟩
    · intro t ht
      rw [hd.1] at ht
      exact .inr ⟨0, none, by simpa using ht⟩
    · intro x hx q p he
      have := List.mem_map_of_mem (f := Prod.snd) hx
      rw [hd.2.1, he] at this
      simp at this

end Bm.EgressThreads
