import Verif.Lemmas.QueueLogic

/-!
# C115: the blocking queues of `QueueingLogic`
-/

namespace Bm.QueueLogic

open Spec

variable {T : Type}

theorem cnt_item (w : Nat) (ws : List (Waiter T)) : cnt (Waiter.forItem w) ws = wokenPops w ws := by
  unfold cnt wokenPops
  congr 1; funext x
  obtain ⟨c, b⟩ := x
  cases c <;> simp [Waiter.forItem]

theorem cnt_room (q : Nat) (ws : List (Waiter T)) : cnt (Waiter.forRoom q) ws = wokenPushes q ws := by
  unfold cnt wokenPushes
  congr 1; funext x
  obtain ⟨c, b⟩ := x
  cases c <;> simp [Waiter.forRoom]

/-- Any number of threads, in any order, with any choice of the threads woken up and with waits which end without reason:
- every call, and every thread which goes on after a wait, does what the elements and the capacity at this moment say: a push finds room
  or waits, a pop takes the oldest element of its worker or waits; nothing throws;
- a worker receives what was pushed for it, in this order, nothing twice and nothing left out;
- `size` is the number of elements of the queue;
- every call is done or waits, once;
- no reader sleeps through an element: when one waits that has not been woken up, there is a woken one for every element;
- no writer sleeps through room: the same, as long as capacities are never made larger.
The full statement has the last clause without this condition; see `C115_refuted_raise`. -/
theorem C115_partial (map : Nat → Nat) (nb cap : Nat) (hm : ∀ q, map q < nb) (evs : List (Ev T)) (hk : Known nb evs) (s : St T)
    (os : List (Out T)) (hr : (St.make nb cap).steps map evs = (s, os)) :
    (∀ a c i b, evs = a ++ .call c i :: b → os[a.length]? = some (outcome map cap a (os.take a.length) c)) ∧
    (∀ a k i b x, evs = a ++ .resume k i :: b → ((St.make nb cap).steps map a).1.waiting[k]? = some x → x.woken = true →
      os[a.length]? = some (outcome map cap a (os.take a.length) x.what)) ∧
    (∀ w, w < nb → received w os <+: pushedFor map w os) ∧
    (∀ q, s.size q = inside map q os) ∧
    (s.waiting.map Waiter.what ++ finished os).Perm (made evs) ∧
    (∀ w b, (⟨.pop w, b⟩ : Waiter T) ∈ s.waiting → b = false → (pendingFor map w os).length ≤ wokenPops w s.waiting) ∧
    (NeverRaised cap evs → ∀ q item b, (⟨.push q item, b⟩ : Waiter T) ∈ s.waiting → b = false →
      capacity cap q evs ≤ inside map q os + wokenPushes q s.waiting) := by
  have hinv := inv_run cap hm evs hk
  have hroom := room_run cap hm evs hk
  rw [hr] at hinv hroom
  have hitems : ∀ w, w < nb → ∃ items, s.workers[w]? = some items := fun w hw =>
    ⟨_, List.getElem?_eq_getElem (by rw [hinv.core.len]; exact hw)⟩
  have hstep : ∀ a e b, evs = a ++ e :: b → os.take a.length = ((St.make nb cap).steps map a).2 ∧
      os[a.length]? = some (((St.make nb cap).steps map a).1.step map e).2 ∧
      Stepped map nb cap ((St.make nb cap).steps map a).1 a ((St.make nb cap).steps map a).2 e := by
    intro a e b he
    obtain ⟨h1, h2⟩ := steps_at map (St.make nb cap) a b e
    rw [← he, hr] at h1 h2
    refine ⟨h1, h2, step_spec hm (inv_run cap hm a ?_) ?_⟩
    · intro w i hh; exact hk w i (by rw [he]; exact List.mem_append.2 (.inl hh))
    · intro w i hh
      refine hk w i ?_
      rw [he]
      rcases List.mem_append.1 hh with hh | hh
      · exact List.mem_append.2 (.inl hh)
      · rw [List.mem_singleton] at hh; rw [hh]; simp
  refine ⟨?_, ?_, ?_, ?_, hinv.calls, ?_, ?_⟩
  · intro a c i b he
    obtain ⟨h1, h2, h3⟩ := hstep a _ b he
    rw [h2, h1, h3.call c i rfl]
  · intro a k i b x he hx hw
    obtain ⟨h1, h2, h3⟩ := hstep a _ b he
    rw [h2, h1, h3.resume k i x rfl hx hw]
  · intro w hw
    obtain ⟨items, hi⟩ := hitems w hw
    exact ⟨items.reverse, (hinv.core.fifo w items hi).symm⟩
  · intro q
    obtain ⟨items, hi⟩ := hitems (map q) (hm q)
    rw [hinv.core.inside hi]
    simp only [St.size, St.getQueue]
    cases s.queues.lookup q <;> rfl
  · rintro w b hx rfl
    have hw : w < nb := by
      have hmem : Call.pop w ∈ made evs := hinv.calls.subset (List.mem_append.2 (.inl (List.mem_map.2 ⟨_, hx, rfl⟩)))
      obtain ⟨e, he, hee⟩ := List.mem_filterMap.1 hmem
      cases e with
      | call c j =>
        simp only [Option.some.injEq] at hee
        subst hee
        exact hk w j he
      | _ => simp at hee
    obtain ⟨items, hi⟩ := hitems w hw
    rw [hinv.core.pending hi, List.length_reverse, ← cnt_item]
    exact hinv.item w items hi ⟨_, hx, by simp [Waiter.forItem], rfl⟩
  · rintro hn q item b hx rfl
    obtain ⟨items, hi⟩ := hitems (map q) (hm q)
    rw [hinv.core.inside hi, ← hinv.caps, ← cnt_room]
    exact hroom hn q ⟨_, hx, by simp [Waiter.forRoom], rfl⟩

/-- Nothing throws. -/
theorem C115_no_throw (map : Nat → Nat) (nb cap : Nat) (hm : ∀ q, map q < nb) (evs : List (Ev T)) (hk : Known nb evs) :
    Out.throws ∉ ((St.make nb cap).steps map evs).2 := by
  intro hmem
  obtain ⟨n, hn⟩ := List.getElem?_of_mem hmem
  have hlen : n < evs.length := by
    have := (List.getElem?_eq_some_iff.1 hn).1
    rwa [steps_length] at this
  obtain ⟨a, e, b, he, ha⟩ : ∃ a e b, evs = a ++ e :: b ∧ a.length = n :=
    ⟨evs.take n, evs[n], evs.drop (n + 1), by simp, by simp; omega⟩
  obtain ⟨-, h2⟩ := steps_at map (St.make nb cap) a b e
  rw [← he, ha, hn] at h2
  have h3 := (Option.some.inj h2).symm
  have hout : ∀ (os : List (Out T)) c, outcome map cap a os c ≠ .throws := by
    intro os c
    cases c with
    | push q item => simp only [outcome]; split <;> simp
    | pop w => simp only [outcome]; split <;> simp
  have hs : Stepped map nb cap ((St.make nb cap).steps map a).1 a ((St.make nb cap).steps map a).2 e := by
    refine step_spec hm (inv_run cap hm a ?_) ?_
    · intro w i hh; exact hk w i (by rw [he]; exact List.mem_append.2 (.inl hh))
    · intro w i hh
      refine hk w i ?_
      rw [he]
      rcases List.mem_append.1 hh with hh | hh
      · exact List.mem_append.2 (.inl hh)
      · rw [List.mem_singleton] at hh; rw [hh]; simp
  cases e with
  | call c i => rw [hs.call c i rfl] at h3; exact hout _ _ h3
  | resume k i =>
    cases hx : ((St.make nb cap).steps map a).1.waiting[k]? with
    | none => simp [St.step, hx] at h3
    | some x =>
      by_cases hw : x.woken = true
      · rw [hs.resume k i x rfl hx hw] at h3; exact hout _ _ h3
      · simp [St.step, hx, hw] at h3
  | spurious k => simp only [St.step] at h3; split at h3 <;> simp at h3
  | setCapacity q c => simp [St.step] at h3
  | setCapacityForAll c => simp [St.step] at h3

/-- Two workers, capacity 1: a reader waits, a writer gives it an element, a second writer for the same queue waits, the reader goes on
and takes the element, which wakes the writer, which goes on in its turn. -/
def sample : List (Ev Nat) :=
  [.call (.pop 1) 0, .call (.push 3 70) 0, .call (.push 3 71) 0, .call (.push 2 80) 0, .resume 0 0, .resume 0 0, .call (.pop 0) 0]

example : (∀ q, q % 2 < 2) ∧ Known 2 sample ∧ NeverRaised 1 sample ∧
    ((St.make 2 1).steps (· % 2) sample).2 = [.waits, .pushed 3 70, .waits, .pushed 2 80, .popped 1 3 70, .pushed 3 71, .popped 0 2 80] ∧
    ((St.make 2 1).steps (· % 2) (sample.take 4)).1.waiting = [⟨.pop 1, true⟩, ⟨.push 3 71, false⟩] := by
  refine ⟨fun q => Nat.mod_lt _ (by decide), ?_, ?_, by decide +kernel, by decide +kernel⟩
  · intro w i h
    simp [sample] at h
    omega
  · intro a e b h
    have : e ∈ sample := by rw [h]; simp
    cases e <;> trivial

/-- What `NeverRaised` is needed for: a capacity of 1, a writer waits for room, the capacity is set to 2 by `set_capacity` or by
`set_capacity_for_all`; there is room now, the writer is not woken up. -/
theorem C115_refuted_raise (ev : Ev Nat) (he : ev = .setCapacity 0 2 ∨ ev = .setCapacityForAll 2) :
    ¬ ∀ (map : Nat → Nat) (nb cap : Nat) (_ : ∀ q, map q < nb) (evs : List (Ev Nat)) (_ : Known nb evs) (s : St Nat) (os : List (Out Nat))
      (_ : (St.make nb cap).steps map evs = (s, os)) (q item : Nat) (b : Bool), (⟨.push q item, b⟩ : Waiter Nat) ∈ s.waiting → b = false →
      capacity cap q evs ≤ inside map q os + wokenPushes q s.waiting := by
  intro h
  have h' := h (fun _ => 0) 1 1 (fun _ => Nat.zero_lt_one) [.call (.push 0 70) 0, .call (.push 0 71) 0, ev] (by
    intro w i hh
    rcases he with rfl | rfl <;> simp at hh) _ _ rfl 0 71 false (by rcases he with rfl | rfl <;> decide) rfl
  rcases he with rfl | rfl <;> revert h' <;> decide

/-- The same with a capacity of none: nothing ever wakes the writer, no element is there whose removal could. -/
theorem C115_refuted_stuck :
    ((St.make 1 0).steps (fun _ => 0) [.call (.push 0 70) 0, .setCapacity 0 5, .call (.pop 0) 0]).1.waiting =
      ([⟨.push 0 70, false⟩, ⟨.pop 0, false⟩] : List (Waiter Nat)) := by decide

end Bm.QueueLogic
