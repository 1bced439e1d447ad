import Verif.Lemmas.Monitor

/-!
# C73, C74, C75: queues shared by threads
-/

namespace Bm.Monitor

open Spec

variable {T : Type}

theorem isNew_inv {s : St T} (h : IsNew s) :
    Inv s ∧ WInv s ∧ FullOk s.full ∧ (∀ k, s.queue k = []) ∧ s.threads.filterMap inCall = [] := by
  have key : ∀ (nq : Nat) (full : Nat → Nat → Bool) (cap : Nat → Nat) (n : Nat),
      (St.new nq full cap n : St T).threads.filterMap inCall = [] := by
    intro nq full cap n
    rw [List.filterMap_eq_nil_iff]
    intro t ht
    rw [List.eq_of_mem_replicate ht]
    rfl
  rcases h with ⟨c, n, rfl⟩ | ⟨hi, lo, n, rfl⟩
  · refine ⟨(new_inv _ _ _ _).1, (new_inv _ _ _ _).2, ?_, fun _ => rfl, key _ _ _ _⟩
    intro n c h
    simp only [newQueue, St.new, Bool.not_eq_true', decide_eq_false_iff_not] at h
    omega
  · refine ⟨(new_inv _ _ _ _).1, (new_inv _ _ _ _).2, ?_, fun _ => rfl, key _ _ _ _⟩
    intro n c h
    simp only [newInputBuffer, St.new, decide_eq_true_eq] at h
    omega

theorem full_run : ∀ (ls : List (Label T)) (s s' : St T) (es : List (Ev T)), s.run ls = some (s', es) →
    s'.full = s.full ∧ s'.nq = s.nq ∧ s'.threads.length = s.threads.length
  | [], s, s', es, h => by
    simp only [St.run, Option.some.injEq, Prod.mk.injEq] at h
    rw [h.1]
    exact ⟨rfl, rfl, rfl⟩
  | l :: ls, s, s', es, h => by
    obtain ⟨s1, es1, es2, h1, h2, -⟩ := run_cons h
    obtain ⟨a, b, c⟩ := static h1
    obtain ⟨a', b', c'⟩ := full_run ls s1 s' es2 h2
    exact ⟨a'.trans b, b'.trans a, c'.trans c⟩

theorem inv_run {s s' : St T} {ls : List (Label T)} {es : List (Ev T)} (h : s.run ls = some (s', es))
    (hi : Inv s) : Inv s' :=
  run_induct (P := Inv) (L := fun _ _ => True) (fun _ _ _ _ h _ hi => Inv.step h hi) ls s s' es h
    (fun _ _ _ => trivial) hi

theorem winv_run {s s' : St T} {ls : List (Label T)} {es : List (Ev T)} (h : s.run ls = some (s', es))
    (hn : ∀ l ∈ ls, NoSetCap l) (hf : FullOk s.full) (hi : WInv s) : WInv s' :=
  (run_induct (P := fun s => WInv s ∧ FullOk s.full) (L := fun l _ => NoSetCap l)
    (fun s l s' es h hl hi => ⟨WInv.step h hi.2 (fun k c e => absurd e (hl k c)) hi.1, by
      rw [(static h).2.1]; exact hi.2⟩) ls s s' es h (fun l hl _ => hn l hl) ⟨hi, hf⟩).1

theorem quiet_of {s : St T} (h : s.threads.all (fun t => match t with
    | .idle => true
    | .sleepR => true
    | .sleepW _ _ => true
    | _ => false) = true) : Quiet s := by
  intro t ht
  have := List.all_eq_true.1 h t ht
  cases t with
  | idle => exact .inl rfl
  | sleepR => exact .inr (.inl rfl)
  | sleepW k x => exact .inr (.inr ⟨k, x, rfl⟩)
  | _ => cases this

/-! ## C73 -/

/-- **C73 (each queue is first-in first-out, and nothing in it is lost or duplicated).**  Whatever the threads
do, and in whatever order: the elements that were put in a queue are those taken from it, in the same order,
followed by those still in it. -/
theorem C73_fifo {s0 s : St T} {ls : List (Label T)} {es : List (Ev T)} (h0 : IsNew s0)
    (h : s0.run ls = some (s, es)) (k : Nat) : pushedIn k es = poppedFrom k es ++ s.queue k := by
  have := queue_run k ls s0 s es h
  rwa [(isNew_inv h0).2.2.2.1 k, List.nil_append] at this

/-- **C73 (each call of `push_front` counts once).**  The elements given to `push_front`, with the queues, are
exactly those that were put in a queue or refused together with those of the calls still going on. -/
theorem C73_calls {s0 s : St T} {ls : List (Label T)} {es : List (Ev T)} (h0 : IsNew s0)
    (h : s0.run ls = some (s, es)) :
    (calls ls).Perm (settled es ++ s.threads.filterMap inCall) := by
  have := calls_run ls s0 s es h
  rw [(isNew_inv h0).2.2.2.2, List.append_nil] at this
  exact this.symm

/-- The test of `push_front` on a queue that is not over its capacity. -/
theorem full_iff {s0 s : St T} {ls : List (Label T)} {es : List (Ev T)} (h0 : IsNew s0)
    (h : s0.run ls = some (s, es)) (k : Nat) (hk : (s.queue k).length ≤ s.cap k) :
    s.full (s.queue k).length (s.cap k) = true ↔ (s.queue k).length = s.cap k := by
  rw [(full_run ls s0 s es h).1]
  rcases h0 with ⟨c, n, rfl⟩ | ⟨hi, lo, n, rfl⟩
  · simp only [newQueue, St.new, Bool.not_eq_true', decide_eq_false_iff_not]
    omega
  · simp only [newInputBuffer, St.new, decide_eq_true_eq]

/-- **C73 (the capacity is kept).**  As long as capacities do not change, no queue holds more elements than its
capacity. -/
theorem C73_capacity {s0 s : St T} {ls : List (Label T)} {es : List (Ev T)} (h0 : IsNew s0)
    (hn : ∀ l ∈ ls, NoSetCap l) (h : s0.run ls = some (s, es)) (k : Nat) :
    s.cap k = s0.cap k ∧ (s.queue k).length ≤ s0.cap k := by
  have hfull : ∀ n c, n ≤ c → s0.full n c = false → n < c := by
    intro n c hle hf
    rcases h0 with ⟨c', n', rfl⟩ | ⟨hi, lo, n', rfl⟩
    · simpa [newQueue, St.new] using hf
    · simp only [newInputBuffer, St.new, decide_eq_false_iff_not] at hf
      omega
  have := run_induct (P := fun s => s.cap k = s0.cap k ∧ (s.queue k).length ≤ s0.cap k ∧ s.full = s0.full)
    (L := fun l _ => NoSetCap l) (fun s l s' es h hl hi => by
      obtain ⟨h1, h2, h3⟩ := hi
      refine ⟨?_, ?_, (static h).2.1.trans h3⟩
      · cases h with
        | setCap => exact absurd rfl (hl _ _)
        | _ => exact h1
      · cases h with
        | @push i m x b e hf =>
          by_cases hm : k = m
          · subst hm
            have := hfull _ _ (h1 ▸ h2) (h3 ▸ hf)
            simp only [St.move, Function.update_self, List.length_append, List.length_singleton]
            omega
          · simpa [St.move, Function.update_of_ne hm] using h2
        | @pop i m x q e _ eq =>
          by_cases hm : k = m
          · subst hm
            rw [eq] at h2
            simp only [St.move, Function.update_self]
            simp only [List.length_cons] at h2
            omega
          · simpa [St.move, Function.update_of_ne hm] using h2
        | _ => exact h2) ls s0 s es h (fun l hl _ => hn l hl)
    ⟨rfl, by rw [(isNew_inv h0).2.2.2.1 k]; exact Nat.zero_le _, rfl⟩
  exact ⟨this.1, this.2.1⟩

/-- **C73 (when an element is put in a queue, refused and taken).**  An element is put in a queue that is not
full, by a call that asked for that; it is refused only by a full queue, if the call is not to wait; the
element taken is the oldest one of the first queue that is not empty. -/
theorem C73_event {s0 s s' : St T} {ls : List (Label T)} {es es' : List (Ev T)} {l : Label T}
    (h0 : IsNew s0) (hn : ∀ l ∈ ls, NoSetCap l) (h : s0.run ls = some (s, es))
    (h' : s.step l = some (s', es')) :
    ∀ e ∈ es', match e with
      | .pushed k x => (s.queue k).length < s0.cap k ∧ ∃ (i : Nat) (b : Bool), s.threads[i]? = some (TS.pushing k x b)
      | .refused k x => (s.queue k).length = s0.cap k ∧ ∃ i : Nat, s.threads[i]? = some (TS.pushing k x false)
      | .popped k x => (∀ j < k, s.queue j = []) ∧ ∃ q, s.queue k = x :: q := by
  intro e he
  have hc := C73_capacity h0 hn h
  have hf := fun k => full_iff h0 h k ((hc k).1 ▸ (hc k).2)
  cases stepped h' with
  | @push i k x b e' hfu =>
    simp only [List.mem_singleton] at he
    subst he
    refine ⟨?_, i, b, e'⟩
    have h1 := mt (hf k).2 (by simp [hfu])
    have h2 := hc k
    rw [h2.1] at h1
    omega
  | @refused i k x e' hfu =>
    simp only [List.mem_singleton] at he
    subst he
    exact ⟨(hc k).1 ▸ (hf k).1 hfu, i, e'⟩
  | @pop i k x q e' hfi eq =>
    simp only [List.mem_singleton] at he
    subst he
    exact ⟨(first_some hfi).2.2, q, eq⟩
  | _ => simp at he

/-! ## C74 -/

/-- **C74 (a thread asleep has a reason to be, partial: the capacity is not changed).**  If every thread is
outside the object or asleep, then a thread waits to put an element only in a queue that is full. -/
theorem C74_writer_partial {s0 s : St T} {ls : List (Label T)} {es : List (Ev T)} (h0 : IsNew s0)
    (hn : ∀ l ∈ ls, NoSetCap l) (h : s0.run ls = some (s, es)) (hq : Quiet s) {k : Nat}
    (hw : WriterAsleep s k) : (s.queue k).length = s0.cap k := by
  obtain ⟨-, hwi, hfo, -, -⟩ := isNew_inv h0
  have hc := C73_capacity h0 hn h k
  have hp : 0 < s.cnt (TS.isSleepW k) := by
    obtain ⟨x, hx⟩ := hw
    exact cnt_pos.2 ⟨_, hx, by simp [TS.isSleepW]⟩
  have := winv_run h hn hfo hwi k hp
  rw [quiet_cnt hq (p := TS.isPush k) rfl rfl (fun _ _ => rfl),
    quiet_cnt hq (p := TS.isNF k) rfl rfl (fun _ _ => rfl)] at this
  omega

/-- **C74 (a thread asleep has a reason to be: readers).**  If every thread is outside the object or asleep,
then a thread waits for an element only if there is none.  This holds even if capacities change. -/
theorem C74_reader {s0 s : St T} {ls : List (Label T)} {es : List (Ev T)} (h0 : IsNew s0)
    (h : s0.run ls = some (s, es)) (hq : Quiet s) (hr : ReaderAsleep s) (k : Nat) : s.queue k = [] := by
  have hi := inv_run h (isNew_inv h0).1
  have := hi.reader (cnt_pos.2 ⟨_, hr, rfl⟩)
  rw [quiet_cnt hq (p := TS.isPop) rfl rfl (fun _ _ => rfl),
    quiet_cnt hq (p := TS.isNE) rfl rfl (fun _ _ => rfl)] at this
  by_cases hk : k < s.nq
  · exact total_eq_zero (by omega) hk
  · exact hi.empty k (by omega)

/-- **C74 (the threads do not wait for each other, partial: the capacity is not changed).**  A thread waiting
for an element and a thread waiting to put one in a queue (which can hold one) are not both left asleep. -/
theorem C74_deadlock_partial {s0 s : St T} {ls : List (Label T)} {es : List (Ev T)} (h0 : IsNew s0)
    (hn : ∀ l ∈ ls, NoSetCap l) (h : s0.run ls = some (s, es)) (hq : Quiet s) {k : Nat}
    (hc : 0 < s0.cap k) : ¬ (WriterAsleep s k ∧ ReaderAsleep s) := by
  rintro ⟨hw, hr⟩
  have h1 := C74_writer_partial h0 hn h hq hw
  rw [C74_reader h0 h hq hr k] at h1
  simp only [List.length_nil] at h1
  omega

/-- **C74 (nobody is held up by anything but these waits).**  Unless every thread is outside the object or
asleep, some thread can go on. -/
theorem C74_progress {s : St T} (h : ¬ Quiet s) : ∃ l r, GoesOn l ∧ s.step l = some r := goesOn h

/-- **C74 fails when the capacity is raised.**  `set_capacity` does not wake anybody: a thread is left waiting
to put an element in a queue with room for it. -/
theorem C74_set_capacity : ¬ ∀ (s0 s : St Nat) (ls : List (Label Nat)) (es : List (Ev Nat)) (k : Nat),
    IsNew s0 → s0.run ls = some (s, es) → Quiet s → WriterAsleep s k → s.cap k ≤ (s.queue k).length := by
  intro H
  have := H (newQueue 1 1) _ [.callPush 0 0 7 true, .test 0, .notify 0 none, .callPush 0 0 8 true, .test 0,
    .setCap 0 5] _ 0 (.inl ⟨1, 1, rfl⟩) rfl (quiet_of (by decide)) ⟨8, by decide⟩
  revert this
  decide

/-! ## C75 -/

theorem move_0 {s : St T} {i : Nat} {a b t : TS T} (h : s.threads[i]? = some a)
    (h' : (s.move i b).threads[0]? = some t) : (i = 0 ∧ t = b) ∨ (i ≠ 0 ∧ s.threads[0]? = some t) := by
  by_cases hi : i = 0
  · subst hi
    left
    have hl : 0 < s.threads.length := (List.getElem?_eq_some_iff.1 h).1
    simp only [St.move, List.getElem?_set_self hl, Option.some.injEq] at h'
    exact ⟨rfl, h'.symm⟩
  · right
    simp only [St.move, List.getElem?_set_ne hi] at h'
    exact ⟨hi, h'⟩

/-- Thread 0 is where it may wait for a slot. -/
def mayWait : TS T → Prop
  | .pushing _ _ b => b = true
  | .sleepW _ _ => True
  | _ => False

theorem simple_step {s s' : St T} {l : Label T} {es : List (Ev T)} (h : Stepped s l s' es)
    (hl : SimpleUse l) (h0 : ∀ t, s.threads[0]? = some t → ¬ mayWait t) :
    ∀ t, s'.threads[0]? = some t → ¬ mayWait t := by
  intro t ht
  cases h with
  | @callPush i k x b e _ =>
    rcases move_0 e ht with ⟨rfl, rfl⟩ | ⟨-, ht⟩
    · have := hl.2.1 k x b rfl
      simp [mayWait, this]
    · exact h0 t ht
  | @full i k x e _ =>
    rcases move_0 e ht with ⟨rfl, rfl⟩ | ⟨-, ht⟩
    · exact absurd rfl (h0 _ e)
    · exact h0 t ht
  | @spuriousW i k x e =>
    rcases move_0 e ht with ⟨rfl, rfl⟩ | ⟨-, ht⟩
    · exact absurd trivial (h0 _ e)
    · exact h0 t ht
  | @wakeWriter i j k x e ej =>
    rcases move_0 (move_get (c := TS.pushing k x true) e ej (by simp)) ht with ⟨rfl, rfl⟩ | ⟨-, ht⟩
    · exact id
    · rcases move_0 ej ht with ⟨rfl, rfl⟩ | ⟨-, ht⟩
      · exact absurd trivial (h0 _ ej)
      · exact h0 t ht
  | @wakeReader i j e ej =>
    rcases move_0 (move_get (c := TS.popping) e ej (by simp)) ht with ⟨rfl, rfl⟩ | ⟨-, ht⟩
    · exact id
    · rcases move_0 ej ht with ⟨rfl, rfl⟩ | ⟨-, ht⟩
      · exact id
      · exact h0 t ht
  | setCap => exact h0 t ht
  | callPop e | refused e | push e | empty e | pop e | noReader e | noWriter e | spuriousR e =>
    rcases move_0 e ht with ⟨rfl, rfl⟩ | ⟨-, ht⟩
    · exact id
    · exact h0 t ht

theorem new_0 {s0 : St T} (h0 : IsNew s0) {t : TS T} (ht : s0.threads[0]? = some t) : t = .idle := by
  have hm := mem_of ht
  rcases h0 with ⟨c, n, rfl⟩ | ⟨hi, lo, n, rfl⟩ <;> exact List.eq_of_mem_replicate hm

/-- **C75 (the ingress thread of simple_switch never waits for itself).**  If the thread that takes the packets
pushes only packets that need not be kept (`RESUBMIT`), it is never waiting for a slot, whatever the other
threads do. -/
theorem C75_ingress {s0 s : St T} {ls : List (Label T)} {es : List (Ev T)} (h0 : IsNew s0)
    (hu : ∀ l ∈ ls, SimpleUse l) (h : s0.run ls = some (s, es)) :
    ∀ k x, s.threads[0]? ≠ some (.sleepW k x) := by
  intro k x he
  refine run_induct (P := fun s => ∀ t, s.threads[0]? = some t → ¬ mayWait t)
    (L := fun l _ => SimpleUse l) (fun s l s' es h hl hi => simple_step h hl hi) ls s0 s es h
    (fun l hl _ => hu l hl) ?_ _ he trivial
  intro t ht
  rw [new_0 h0 ht]
  exact id

/-- **C75 (the switch does not stop with packets waiting).**  Then, if all threads are asleep or outside the
object and the ingress thread has come back for a packet, there is no packet in the buffer, and nobody is
waiting to bring one. -/
theorem C75_served {s0 s : St T} {ls : List (Label T)} {es : List (Ev T)} (h0 : IsNew s0)
    (hu : ∀ l ∈ ls, SimpleUse l) (h : s0.run ls = some (s, es)) (hq : Quiet s)
    (hl : 0 < s.threads.length) (hi : s.threads[0]? ≠ some .idle) :
    (∀ k, s.queue k = []) ∧ ∀ k, 0 < s0.cap k → ¬ WriterAsleep s k := by
  have hr : ReaderAsleep s := by
    obtain ⟨t, ht⟩ : ∃ t, s.threads[0]? = some t := ⟨_, List.getElem?_eq_getElem hl⟩
    rcases hq t (mem_of ht) with rfl | rfl | ⟨k, x, rfl⟩
    · exact absurd ht hi
    · exact mem_of ht
    · exact absurd ht (C75_ingress h0 hu h k x)
  have hn : ∀ l ∈ ls, NoSetCap l := fun l hl => (hu l hl).2.2
  exact ⟨C74_reader h0 h hq hr, fun k hk hw => C74_deadlock_partial h0 hn h hq hk ⟨hw, hr⟩⟩

/-- **C75 (psa_switch, partial: the ingress thread resubmits no packet).** -/
theorem C75_psa_partial {c n : Nat} {s : St T} {ls : List (Label T)} {es : List (Ev T)} (hc : 0 < c)
    (hu : ∀ l ∈ ls, PsaUse l) (hr : ∀ l ∈ ls, ∀ k x b, l ≠ .callPush 0 k x b)
    (h : (newQueue c n).run ls = some (s, es)) (hq : Quiet s)
    (hl : 0 < s.threads.length) (hi : s.threads[0]? ≠ some .idle) :
    (∀ k, s.queue k = []) ∧ ∀ k, ¬ WriterAsleep s k := by
  have := C75_served (.inl ⟨c, n, rfl⟩)
    (fun l hl => ⟨(hu l hl).1, fun k x b e => absurd e (hr l hl k x b), (hu l hl).2.2⟩) h hq hl hi
  exact ⟨this.1, fun k => this.2 k hc⟩

/-- Where the threads are after the deadlock. -/
def stuckT : TS T → Prop
  | .pushing k _ b => k = 0 ∧ b = true
  | .sleepW k _ => k = 0
  | .popping => False
  | .sleepR => False
  | _ => True

/-- The state after the deadlock. -/
structure Stuck (s : St T) : Prop where
  full : s.full (s.queue 0).length (s.cap 0) = true
  nq : s.nq = 1
  threads : ∀ t ∈ s.threads, stuckT t
  zero : ∃ t, s.threads[0]? = some t ∧ InPush t

theorem zero_move {s : St T} {i : Nat} {a b : TS T} (h : s.threads[i]? = some a)
    (hz : ∃ t, s.threads[0]? = some t ∧ InPush t) (hab : InPush a → InPush b) :
    ∃ t, (s.move i b).threads[0]? = some t ∧ InPush t := by
  obtain ⟨t, ht, hp⟩ := hz
  by_cases hi : i = 0
  · subst hi
    rw [h] at ht
    cases ht
    have hl : 0 < s.threads.length := (List.getElem?_eq_some_iff.1 h).1
    exact ⟨b, by simp only [St.move, List.getElem?_set_self hl], hab hp⟩
  · exact ⟨t, by simpa only [St.move, List.getElem?_set_ne hi] using ht, hp⟩

theorem all_move {s : St T} {i : Nat} {b : TS T} (h : ∀ t ∈ s.threads, stuckT t) (hb : stuckT b) :
    ∀ t ∈ (s.move i b).threads, stuckT t := by
  intro t ht
  rcases mem_move ht with rfl | ht
  · exact hb
  · exact h t ht

theorem Stuck.step {s s' : St T} {l : Label T} {es : List (Ev T)} (h : Stepped s l s' es)
    (hl : PsaUse l) (hi : Stuck s) : Stuck s' ∧ es = [] := by
  obtain ⟨h1, h2, h3, h4⟩ := hi
  cases h with
  | @callPush i k x b e hk =>
    exact ⟨⟨h1, h2, all_move h3 ⟨by omega, hl.2.1 _ _ _ _ rfl⟩, zero_move e h4 (fun _ => trivial)⟩, rfl⟩
  | @callPop i e =>
    have := hl.1 i rfl
    subst this
    obtain ⟨t, ht, hp⟩ := h4
    rw [e] at ht
    cases ht
    exact hp.elim
  | @full i k x e _ =>
    have := h3 _ (mem_of e)
    exact ⟨⟨h1, h2, all_move h3 this.1, zero_move e h4 (fun _ => trivial)⟩, rfl⟩
  | @refused i k x e _ => exact absurd (h3 _ (mem_of e)).2 (by simp)
  | @push i k x b e hf =>
    have := (h3 _ (mem_of e)).1
    subst this
    rw [h1] at hf
    cases hf
  | @empty i e _ => exact (h3 _ (mem_of e)).elim
  | @pop i k x q e _ _ => exact (h3 _ (mem_of e)).elim
  | @noReader i e _ => exact ⟨⟨h1, h2, all_move h3 trivial, zero_move e h4 id⟩, rfl⟩
  | @noWriter i k e _ => exact ⟨⟨h1, h2, all_move h3 trivial, zero_move e h4 id⟩, rfl⟩
  | @wakeReader i j e ej => exact (h3 _ (mem_of ej)).elim
  | @wakeWriter i j k x e ej =>
    refine ⟨⟨h1, h2, all_move (all_move h3 ⟨h3 _ (mem_of ej), rfl⟩) trivial, ?_⟩, rfl⟩
    exact zero_move (move_get (c := TS.pushing k x true) e ej (by simp))
      (zero_move ej h4 (fun _ => trivial)) id
  | @spuriousW i k x e =>
    exact ⟨⟨h1, h2, all_move h3 ⟨h3 _ (mem_of e), rfl⟩, zero_move e h4 (fun _ => trivial)⟩, rfl⟩
  | @spuriousR i e => exact (h3 _ (mem_of e)).elim
  | @setCap k c => exact absurd rfl (hl.2.2 _ _)

theorem Stuck.run : ∀ (ls : List (Label T)) (s s' : St T) (es : List (Ev T)), s.run ls = some (s', es) →
    (∀ l ∈ ls, PsaUse l) → Stuck s → Stuck s' ∧ es = []
  | [], s, s', es, h, _, hs => by
    simp only [St.run, Option.some.injEq, Prod.mk.injEq] at h
    obtain ⟨rfl, rfl⟩ := h
    exact ⟨hs, rfl⟩
  | l :: ls, s, s', es, h, hl, hs => by
    obtain ⟨s1, es1, es2, h1, h2, rfl⟩ := run_cons h
    obtain ⟨a, rfl⟩ := Stuck.step h1 (hl l (by simp)) hs
    obtain ⟨b, rfl⟩ := Stuck.run ls s1 s' es2 h2 (fun l h => hl l (by simp [h])) a
    exact ⟨b, rfl⟩

theorem run_append : ∀ (a b : List (Label T)) (s s1 s2 : St T) (e1 e2 : List (Ev T)),
    s.run a = some (s1, e1) → s1.run b = some (s2, e2) → s.run (a ++ b) = some (s2, e1 ++ e2)
  | [], b, s, s1, s2, e1, e2, h1, h2 => by
    simp only [St.run, Option.some.injEq, Prod.mk.injEq] at h1
    obtain ⟨rfl, rfl⟩ := h1
    exact h2
  | l :: a, b, s, s1, s2, e1, e2, h1, h2 => by
    simp only [St.run] at h1
    simp only [List.cons_append, St.run]
    cases hs : s.step l with
    | none => simp [hs] at h1
    | some r =>
      simp only [hs] at h1
      obtain ⟨⟨s3, e3⟩, h3, h4⟩ := Option.map_eq_some_iff.1 h1
      cases h4
      simp only [run_append a b r.1 s3 s2 e3 e2 h3 h2, Option.map_some, List.append_assoc]

/-- Two threads of a `Queue` that nobody uses at the moment. -/
structure Rest (c n : Nat) (s : St T) (len : Nat) : Prop where
  nq : s.nq = 1
  full : s.full = fun size cap => !decide (size < cap)
  cap : s.cap 0 = c
  threads : s.threads = .idle :: .idle :: List.replicate n .idle
  len : (s.queue 0).length = len

/-- Thread 1 pushes a packet. -/
def fill1 (x : T) : List (Label T) := [.callPush 1 0 x true, .test 1, .notify 1 none]

theorem fill1_run {c n m : Nat} {s : St T} (x : T) (h : Rest c n s m) (hm : m < c) :
    ∃ s', s.run (fill1 x) = some (s', [.pushed 0 x]) ∧ Rest c n s' (m + 1) := by
  obtain ⟨h1, h2, h3, h4, h5⟩ := h
  refine ⟨{ s with queue := Function.update s.queue 0 (s.queue 0 ++ [x]) }, ?_, h1, h2, h3, h4, ?_⟩
  · obtain ⟨nq, full, cap, queue, threads⟩ := s
    dsimp only at h1 h2 h3 h4 h5
    subst h1 h2 h4
    simp [fill1, St.run, St.step, St.move, St.push, St.notify, h3, h5, hm, TS.isSleepR]
  · simp [h5]

theorem fill_run {c n : Nat} (x : T) : ∀ (j m : Nat) (s : St T), Rest c n s m → m + j ≤ c →
    ∃ s', s.run (List.replicate j (fill1 x)).flatten = some (s', List.replicate j (.pushed 0 x)) ∧
      Rest c n s' (m + j)
  | 0, m, s, h, _ => ⟨s, rfl, h⟩
  | j + 1, m, s, h, hm => by
    obtain ⟨s1, h1, r1⟩ := fill1_run x h (by omega)
    obtain ⟨s2, h2, r2⟩ := fill_run x j (m + 1) s1 r1 (by omega)
    refine ⟨s2, ?_, by rw [show m + (j + 1) = m + 1 + j by omega]; exact r2⟩
    rw [List.replicate_succ, List.flatten_cons]
    exact run_append _ _ s s1 s2 _ _ h1 h2

/-- Thread 0 takes a packet. -/
def take0 : List (Label T) := [.callPop 0, .test 0, .notify 0 none]

theorem take0_run {c n m : Nat} {s : St T} (h : Rest c n s (m + 1)) :
    ∃ s' y, s.run take0 = some (s', [.popped 0 y]) ∧ s.queue 0 = y :: s'.queue 0 ∧ Rest c n s' m := by
  obtain ⟨h1, h2, h3, h4, h5⟩ := h
  cases hq : s.queue 0 with
  | nil => simp [hq] at h5
  | cons y q =>
    refine ⟨{ s with queue := Function.update s.queue 0 q }, y, ?_, by simp, h1, h2, h3, h4, ?_⟩
    · obtain ⟨nq, full, cap, queue, threads⟩ := s
      dsimp only at h1 h2 h3 h4 h5 hq
      subst h1 h2 h4
      simp [take0, St.run, St.step, St.move, St.pop, St.first, St.notify, List.range_succ, hq, TS.isSleepW]
    · simp only [hq, List.length_cons] at h5
      simp only [Function.update_self]
      omega

theorem sleep0_run {c n : Nat} {s : St T} (x : T) (h : Rest c n s c) :
    ∃ s', s.run [.callPush 0 0 x true, .test 0] = some (s', []) ∧ Stuck s' ∧
      s'.threads[0]? = some (.sleepW 0 x) := by
  obtain ⟨h1, h2, h3, h4, h5⟩ := h
  refine ⟨s.move 0 (.sleepW 0 x), ?_, ⟨?_, h1, ?_, ?_⟩, ?_⟩
  · obtain ⟨nq, full, cap, queue, threads⟩ := s
    dsimp only at h1 h2 h3 h4 h5
    subst h1 h2 h4
    simp [St.run, St.step, St.move, St.push, h3, h5]
  · simp [St.move, h2, h3, h5]
  · intro t ht
    simp only [St.move, h4, List.set_cons_zero, List.mem_cons, List.mem_replicate] at ht
    rcases ht with rfl | rfl | ⟨-, rfl⟩
    · rfl
    · trivial
    · trivial
  · exact ⟨.sleepW 0 x, by simp [St.move, h4], trivial⟩
  · simp [St.move, h4]

/-- **C75 fails in psa_switch.**  Whatever the capacity, packets can arrive so that the ingress thread, having
taken a packet it is to resubmit, waits for a slot in its own buffer; from then on nothing happens any more,
however the threads are scheduled: no packet is accepted, none is taken, and the ingress thread never comes
back. -/
theorem C75_psa_deadlock (x : T) {c n : Nat} (hc : 0 < c) (hn : 2 ≤ n) :
    ∃ (ls : List (Label T)) (s : St T) (es : List (Ev T)), (newQueue c n).run ls = some (s, es) ∧
      (∀ l ∈ ls, PsaUse l) ∧ poppedFrom 0 es = [x] ∧ s.threads[0]? = some (.sleepW 0 x) ∧
      ∀ (ls' : List (Label T)) (s' : St T) (es' : List (Ev T)), (∀ l ∈ ls', PsaUse l) →
        s.run ls' = some (s', es') → es' = [] ∧ ∃ t, s'.threads[0]? = some t ∧ InPush t := by
  obtain ⟨n, rfl⟩ : ∃ m, n = m + 2 := ⟨n - 2, by omega⟩
  obtain ⟨c, rfl⟩ : ∃ m, c = m + 1 := ⟨c - 1, by omega⟩
  have r0 : Rest (c + 1) n (newQueue (c + 1) (n + 2) : St T) 0 := ⟨rfl, rfl, rfl, rfl, rfl⟩
  obtain ⟨s1, e1, r1⟩ := fill_run x (c + 1) 0 _ r0 (by omega)
  obtain ⟨s2, y, e2, hy, r2⟩ := take0_run (m := c) (by simpa using r1)
  have hyx : y = x := by
    have := queue_run 0 _ _ _ _ e1
    have h1 : ∀ j, pushedIn 0 (List.replicate j (Ev.pushed 0 x)) = List.replicate j x := by
      intro j
      induction j with
      | zero => rfl
      | succ j ih => simp [List.replicate_succ, pushedIn, ih]
    have h2 : ∀ j, poppedFrom 0 (List.replicate j (Ev.pushed 0 x)) = [] := by
      intro j
      induction j with
      | zero => rfl
      | succ j ih => simp [List.replicate_succ, poppedFrom, ih]
    rw [h1, h2, hy] at this
    simp only [newQueue, St.new, List.nil_append, List.replicate_succ, List.cons.injEq] at this
    exact this.1.symm
  subst hyx
  obtain ⟨s3, e3, r3⟩ := fill1_run y r2 (by omega)
  obtain ⟨s4, e4, k4, t4⟩ := sleep0_run y r3
  refine ⟨_, s4, _, run_append _ _ _ _ _ _ _ e1 (run_append _ _ _ _ _ _ _ e2
    (run_append _ _ _ _ _ _ _ e3 e4)), ?_, ?_, t4, ?_⟩
  · intro l hl
    have hf : ∀ l ∈ fill1 y, PsaUse l := by
      intro l hl
      simp only [fill1, List.mem_cons, List.not_mem_nil, or_false] at hl
      rcases hl with rfl | rfl | rfl <;> simp [PsaUse, NoSetCap]
    simp only [List.mem_append, List.mem_flatten, List.mem_replicate] at hl
    rcases hl with ⟨l', ⟨-, rfl⟩, hl⟩ | hl | hl | hl
    · exact hf l hl
    · simp only [take0, List.mem_cons, List.not_mem_nil, or_false] at hl
      rcases hl with rfl | rfl | rfl <;> simp [PsaUse, NoSetCap]
    · exact hf l hl
    · simp only [List.mem_cons, List.not_mem_nil, or_false] at hl
      rcases hl with rfl | rfl <;> simp [PsaUse, NoSetCap]
  · rw [poppedFrom_append]
    have h2 : ∀ j, poppedFrom 0 (List.replicate j (Ev.pushed 0 y)) = [] := by
      intro j
      induction j with
      | zero => rfl
      | succ j ih => simp [List.replicate_succ, poppedFrom, ih]
    rw [h2]
    simp [poppedFrom]
  · intro ls' s' es' hu hr
    obtain ⟨a, b⟩ := Stuck.run ls' s4 s' es' hr hu k4
    exact ⟨b, a.zero⟩

/-! ## Examples -/

namespace Ex

/-- Three threads on a `Queue` of one slot: thread 1 pushes 10, thread 2 has to wait with 20, thread 0 takes 10
and wakes thread 2, which is overtaken by thread 1 with 30 and sleeps again. -/
def ls : List (Label Nat) :=
  [.callPush 1 0 10 true, .test 1, .callPush 2 0 20 true, .test 2, .notify 1 none, .callPop 0, .test 0,
    .callPush 1 0 30 true, .notify 0 (some 2), .test 1, .test 2, .notify 1 none]

example : ∃ s, (newQueue 1 3).run ls = some (s, [.pushed 0 10, .popped 0 10, .pushed 0 30]) ∧
    s.queue 0 = [30] ∧ s.threads = [.idle, .idle, .sleepW 0 20] ∧ Quiet s ∧ WriterAsleep s 0 :=
  ⟨_, rfl, rfl, rfl, quiet_of (by decide), 20, by decide⟩

example : calls ls = [(0, 10), (0, 20), (0, 30)] := by decide

/-- `InputBuffer` with one slot for each priority: the ingress thread, thread 0, takes the packet 11 of high
priority first, and its resubmission of 11 is refused when another thread has used the slot; the packet 2 of
low priority waits for a slot. -/
def ls' : List (Label Nat) :=
  [.callPush 1 1 1 true, .test 1, .notify 1 none, .callPush 2 0 11 false, .test 2, .notify 2 none,
    .callPush 1 1 2 true, .test 1, .callPop 0, .test 0, .notify 0 none, .callPush 2 0 12 false, .test 2,
    .notify 2 none, .callPush 0 0 11 false, .test 0]

example : ∃ s, (newInputBuffer 1 1 3).run ls' = some (s, [.pushed 1 1, .pushed 0 11, .popped 0 11,
      .pushed 0 12, .refused 0 11]) ∧
    s.queue 0 = [12] ∧ s.queue 1 = [1] ∧ s.threads = [.idle, .sleepW 1 2, .idle] :=
  ⟨_, rfl, rfl, rfl, rfl⟩

example : ∀ l ∈ ls', SimpleUse l := by
  simp [ls', SimpleUse, NoSetCap]

/-- The ingress thread takes everything and waits for more. -/
def ls'' : List (Label Nat) :=
  ls' ++ [.callPop 0, .test 0, .notify 0 none, .callPop 0, .test 0, .notify 0 (some 1), .test 1, .callPop 0,
    .test 0, .notify 0 none, .callPop 0, .test 0, .notify 1 (some 0), .test 0]

example : ∃ s, (newInputBuffer 1 1 3).run ls'' = some (s, [.pushed 1 1, .pushed 0 11, .popped 0 11,
      .pushed 0 12, .refused 0 11, .popped 0 12, .popped 1 1, .pushed 1 2, .popped 1 2]) ∧
    Quiet s ∧ s.threads[0]? = some .sleepR := ⟨_, rfl, quiet_of (by decide), rfl⟩

example : ∀ l ∈ ls'', SimpleUse l := by
  simp [ls'', ls', SimpleUse, NoSetCap]

/-- psa_switch without resubmission: two packets arrive, the second one has to wait; both are taken. -/
def ls3 : List (Label Nat) :=
  [.callPush 1 0 1 true, .test 1, .notify 1 none, .callPush 1 0 2 true, .test 1, .callPop 0, .test 0,
    .notify 0 (some 1), .callPop 0, .test 0, .test 1, .notify 1 (some 0), .test 0, .notify 0 none, .callPop 0,
    .test 0]

example : ∃ s, (newQueue 1 2).run ls3 = some (s, [.pushed 0 1, .popped 0 1, .pushed 0 2, .popped 0 2]) ∧
    Quiet s ∧ s.threads[0]? = some .sleepR := ⟨_, rfl, quiet_of (by decide), rfl⟩

example : (∀ l ∈ ls3, PsaUse l) ∧ ∀ l ∈ ls3, ∀ k x b, l ≠ .callPush 0 k x b := by
  simp [ls3, PsaUse, NoSetCap]

/-- The deadlock for the capacity of `input_buffer`. -/
example := C75_psa_deadlock (7 : Nat) (c := 1024) (n := 2) (by omega) (by omega)

end Ex

end Bm.Monitor
