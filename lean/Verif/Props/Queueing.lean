import Verif.Lemmas.QueueingStep

/-!
# C25, C26: egress queues
-/

namespace Bm.Queueing

open Spec.Queueing

variable {T : Type}

/-- A new object.  `/repo/include/bm/bm_sim/queueing.h:492-498`. -/
def init (capacity : Nat) : State T := { capacity := capacity }

/-- The lines of a new object. -/
def emptyLines (F : Fixed) (capacity : Nat) : Lines T :=
  { depth := fun _ _ => capacity, interval := fun _ _ => F.ticks 0 }

theorem rep_init (F : Fixed) (capacity : Nat) :
    Rep F 0 (init capacity : State T) (emptyLines F capacity) where
  sorted := fun _ _ => List.Pairwise.nil
  ids := fun _ _ e he => by simp [init] at he
  cnt := fun _ => Nat.le_refl _
  mine := fun _ _ e he => by simp [init] at he
  lines := fun _ _ => rfl
  bounded := fun q l hl => by simp [emptyLines] at hl
  info := fun q => ⟨rfl, fun _ => rfl, fun _ => rfl, fun _ => rfl⟩
  wsize := fun w => by simp [init]

/-! ## Histories -/

/-- The packets accepted into one line, in order. -/
def accepted (q p : Nat) : List (Op T × Res T) → List T
  | [] => []
  | (.push q' p' x _ _, .accepted) :: t =>
    if q' = q ∧ p' = p then x :: accepted q p t else accepted q p t
  | _ :: t => accepted q p t

/-- The packets that left one line, in order, each with the clock reading when it left. -/
def departed (q p : Nat) : List (Op T × Res T) → List (T × Int)
  | [] => []
  | (.pop _ now, .item q' p' x) :: t =>
    if q' = q ∧ p' = p then (x, now) :: departed q p t else departed q p t
  | _ :: t => departed q p t

/-- All results are as the lines require. -/
def Follows (F : Fixed) (S : Lines T) : List (Op T × Res T) → Prop
  | [] => True
  | (op, r) :: t => Ok F S op r ∧ Follows F (effect F S op r) t

/-- The lines after a history. -/
def after (F : Fixed) (S : Lines T) : List (Op T × Res T) → Lines T
  | [] => S
  | (op, r) :: t => after F (effect F S op r) t

/-- A packet's departure time and the service interval in force when it was accepted. -/
structure Grant (T : Type) where
  x : T
  arrival : Int
  time : Int
  interval : Nat

/-- The departure times given to the packets accepted into one line, in order. -/
def grants (F : Fixed) (q p : Nat) (S : Lines T) : List (Op T × Res T) → List (Grant T)
  | [] => []
  | (.push q' p' x t0 t1, .accepted) :: t =>
    let S' := effect F S (.push q' p' x t0 t1) .accepted
    if q' = q ∧ p' = p then
      ⟨x, t1, (S.touch q t0).sched q p t1, S.interval q p⟩ :: grants F q p S' t
    else grants F q p S' t
  | (op, r) :: t => grants F q p (effect F S op r) t

theorem run_follows {F : Fixed} (hpri : F.nbPri ≤ 32) (ops : List (Op T)) {n s} {S : Lines T}
    (h : Rep F n s S) (hn : n + ops.length < 2 ^ 64) :
    ∃ t s', run F s ops = some (t, s') ∧ t.map Prod.fst = ops ∧ Follows F S t ∧
      Rep F (n + ops.length) s' (after F S t) := by
  induction ops generalizing n s S with
  | nil => exact ⟨[], s, rfl, rfl, trivial, h⟩
  | cons op ops ih =>
    simp only [List.length_cons] at hn
    obtain ⟨r, s1, he, hok, hrep⟩ := h.exec (by omega) hpri op
    obtain ⟨t, s2, hr, hm, hf, hr2⟩ := ih hrep (by omega)
    refine ⟨(op, r) :: t, s2, ?_, by simp [hm], ⟨hok, hf⟩, ?_⟩
    · simp [run, he, hr]
    · simp only [List.length_cons, after]
      rwa [show n + (ops.length + 1) = n + 1 + ops.length by omega]

/-- **C26.** Any history of fewer than 2^64 calls on a new object with at most 32 priorities and any
clock readings runs without error, and each call returns what the waiting lines require: a packet is
refused exactly when its line holds at least the configured depth; a departure is the first packet
of a ready line of the highest priority having one, and a worker is blocked only if no line it serves
is ready; reported sizes are the numbers of packets in the lines; settings take effect at once. -/
theorem C26_priority_and_depth {F : Fixed} (hpri : F.nbPri ≤ 32) (capacity : Nat) (ops : List (Op T))
    (hn : ops.length < 2 ^ 64) :
    ∃ t s, run F (init capacity) ops = some (t, s) ∧ t.map Prod.fst = ops ∧
      Follows F (emptyLines F capacity) t := by
  obtain ⟨t, s, h1, h2, h3, _⟩ := run_follows hpri ops (rep_init F capacity) (by omega)
  exact ⟨t, s, h1, h2, h3⟩

theorem effect_line_other (F : Fixed) (S : Lines T) (op : Op T) (r : Res T)
    (h1 : ∀ q p x t0 t1, op = .push q p x t0 t1 → r ≠ .accepted)
    (h2 : ∀ w now q p x, op = .pop w now → r ≠ .item q p x) : (effect F S op r).line = S.line := by
  cases op <;> cases r <;>
    first
    | rfl
    | exact absurd rfl (h1 _ _ _ _ _ rfl)
    | exact absurd rfl (h2 _ _ _ _ _ rfl)

theorem conserve_aux (F : Fixed) (q p : Nat) (t : List (Op T × Res T)) (S : Lines T)
    (h : Follows F S t) :
    (S.line q p).map Prod.fst ++ accepted q p t
      = (departed q p t).map Prod.fst ++ ((after F S t).line q p).map Prod.fst := by
  induction t generalizing S with
  | nil => simp [accepted, departed, after]
  | cons a t ih =>
    obtain ⟨op, r⟩ := a
    obtain ⟨hok, hf⟩ := h
    have := ih (effect F S op r) hf
    simp only [after]
    by_cases h1 : ∃ q' p' x t0 t1, op = .push q' p' x t0 t1 ∧ r = .accepted
    · obtain ⟨q', p', x, t0, t1, rfl, rfl⟩ := h1
      rw [show departed q p ((Op.push q' p' x t0 t1, Res.accepted) :: t) = departed q p t from rfl,
        ← this, accepted]
      simp only [effect, Lines.join, touch_line]
      by_cases hq : q' = q
      · subst hq
        rw [upd2_q]
        by_cases hp : p' = p
        · subst hp; simp
        · simp [hp, Ne.symm hp]
      · rw [upd2_of_ne _ _ _ (Ne.symm hq)]; simp [hq]
    · by_cases h2 : ∃ w now q' p' x, op = .pop w now ∧ r = .item q' p' x
      · obtain ⟨w, now, q', p', x, rfl, rfl⟩ := h2
        rw [show accepted q p ((Op.pop w now, Res.item q' p' x) :: t) = accepted q p t from rfl,
          departed]
        simp only [effect, Lines.leave] at this
        rcases hok with ⟨h, _⟩ | ⟨_, ⟨h, _⟩ | ⟨q1, p1, x1, h, _, ⟨s, hh, _⟩, _⟩⟩
        · cases h
        · cases h
        · cases h
          simp only [effect, Lines.leave]
          by_cases hq : q' = q
          · subst hq
            rw [upd2_q] at this
            by_cases hp : p' = p
            · subst hp
              cases hl : S.line q' p' with
              | nil => rw [hl] at hh; simp at hh
              | cons y l =>
                rw [hl] at hh this
                simp only [List.head?_cons, Option.some.injEq] at hh
                subst hh
                simp only [if_true, List.tail_cons] at this
                simpa using this
            · simp only [Ne.symm hp, if_false] at this
              simpa [hp] using this
          · rw [upd2_of_ne _ _ _ (Ne.symm hq)] at this
            simpa [hq] using this
      · have hl := effect_line_other F S op r (fun q' p' x t0 t1 h3 h4 => h1 ⟨_, _, _, _, _, h3, h4⟩)
          (fun w now q' p' x h3 h4 => h2 ⟨_, _, _, _, _, h3, h4⟩)
        rw [hl] at this
        rw [show accepted q p ((op, r) :: t) = accepted q p t by
            cases op <;> cases r <;> first | rfl | exact absurd ⟨_, _, _, _, _, rfl, rfl⟩ h1,
          show departed q p ((op, r) :: t) = departed q p t by
            cases op <;> cases r <;> first | rfl | exact absurd ⟨_, _, _, _, _, rfl, rfl⟩ h2]
        exact this

/-- **C26**, nothing lost or duplicated: for every line the packets accepted are those that left
followed by those inside. -/
theorem C26_conservation {F : Fixed} (hpri : F.nbPri ≤ 32) (capacity : Nat) (ops : List (Op T))
    (hn : ops.length < 2 ^ 64) {t s} (hr : run F (init capacity) ops = some (t, s)) (q p : Nat) :
    accepted q p t = (departed q p t).map Prod.fst ++
      ((after F (emptyLines F capacity) t).line q p).map Prod.fst := by
  obtain ⟨t', s', h1, h2, h3, _⟩ := run_follows hpri ops (rep_init F capacity) (by omega)
  rw [hr] at h1
  obtain ⟨rfl, rfl⟩ := Prod.mk.inj (Option.some.inj h1)
  simpa [emptyLines] using conserve_aux F q p t (emptyLines F capacity) h3

/-- **C25**, order: packets of one queue and priority leave in the order in which they were
accepted, for all clock readings. -/
theorem C25_fifo {F : Fixed} (hpri : F.nbPri ≤ 32) (capacity : Nat) (ops : List (Op T))
    (hn : ops.length < 2 ^ 64) {t s} (hr : run F (init capacity) ops = some (t, s)) (q p : Nat) :
    (departed q p t).map Prod.fst <+: accepted q p t :=
  ⟨_, (C26_conservation hpri capacity ops hn hr q p).symm⟩

/-! ### Departure times -/

theorem grants_of_ne (F : Fixed) (S : Lines T) (q p : Nat) (op : Op T) (r : Res T) (t)
    (h : ∀ x t0 t1, op = .push q p x t0 t1 → r ≠ .accepted) :
    grants F q p S ((op, r) :: t) = grants F q p (effect F S op r) t := by
  cases op with
  | push q' p' x t0 t1 =>
    cases r with
    | accepted =>
      by_cases hq : q' = q ∧ p' = p
      · obtain ⟨rfl, rfl⟩ := hq
        exact absurd rfl (h _ _ _ rfl)
      · simp [grants, hq]
    | _ => rfl
  | _ => cases r <;> rfl

/-- The last departure time given out for a line never decreases by a call that gives out none. -/
theorem effect_last (F : Fixed) (S : Lines T) (q p : Nat) (op : Op T) (r : Res T)
    (h : ∀ x t0 t1, op = .push q p x t0 t1 → r ≠ .accepted) {l} (hl : S.last q = some l) :
    ∃ l', (effect F S op r).last q = some l' ∧ l' p = l p := by
  have touch : ∀ q' t0, (S.touch q' t0).last q = some l := by
    intro q' t0
    by_cases hq : q = q'
    · subst hq; simp [Lines.touch, hl]
    · simp [Lines.touch, Function.update_of_ne hq, hl]
  cases op with
  | push q' p' x t0 t1 =>
    cases r with
    | accepted =>
      simp only [effect, Lines.join]
      by_cases hq : q = q'
      · subst hq
        have hp : p ≠ p' := by rintro rfl; exact h _ _ _ rfl rfl
        simp only [Function.update_self, touch q t0, Option.getD_some]
        exact ⟨_, rfl, by simp [Function.update_of_ne hp]⟩
      · simp only [Function.update_of_ne hq]
        exact ⟨l, touch q' t0, rfl⟩
    | _ => exact ⟨l, touch q' t0, rfl⟩
  | pop w now => cases r <;> exact ⟨l, hl, rfl⟩
  | size q' => exact ⟨l, hl, rfl⟩
  | sizePri q' p' => exact ⟨l, hl, rfl⟩
  | setCap q' c t => exact ⟨l, touch q' t, rfl⟩
  | setCapPri q' p' c t => cases r <;> exact ⟨l, touch q' t, rfl⟩
  | setCapAll c => exact ⟨l, hl, rfl⟩
  | setRate q' c t => exact ⟨l, touch q' t, rfl⟩
  | setRatePri q' p' c t => cases r <;> exact ⟨l, touch q' t, rfl⟩
  | setRateAll c => exact ⟨l, hl, rfl⟩

/-- One service interval between consecutive departure times. -/
def Spaced (last : Option Int) : List (Grant T) → Prop
  | [] => True
  | g :: gs => g.arrival ≤ g.time ∧ (∀ l, last = some l → l + g.interval ≤ g.time) ∧
      Spaced (some g.time) gs

theorem spaced_aux (F : Fixed) (q p : Nat) (t : List (Op T × Res T)) (S : Lines T)
    (last : Option Int) (hl : ∀ x, last = some x → ∃ l, S.last q = some l ∧ l p = x) :
    Spaced last (grants F q p S t) := by
  induction t generalizing S last with
  | nil => trivial
  | cons a t ih =>
    obtain ⟨op, r⟩ := a
    by_cases h : ∃ x t0 t1, op = .push q p x t0 t1 ∧ r = .accepted
    · obtain ⟨x, t0, t1, rfl, rfl⟩ := h
      simp only [grants, and_self, if_true, Spaced]
      refine ⟨by simp [Lines.sched], ?_, ih _ _ ?_⟩
      · intro y hy
        obtain ⟨l, h1, rfl⟩ := hl y hy
        simp only [Lines.sched, Lines.touch, h1, Option.getD_some, Function.update_self]
        exact le_max_right _ _
      · intro y hy
        obtain rfl := Option.some.inj hy
        simp only [effect, Lines.join, Function.update_self]
        exact ⟨_, rfl, by simp⟩
    · have h' : ∀ x t0 t1, op = .push q p x t0 t1 → r ≠ .accepted :=
        fun x t0 t1 h1 h2 => h ⟨x, t0, t1, h1, h2⟩
      rw [grants_of_ne F S q p op r t h']
      refine ih _ _ fun y hy => ?_
      obtain ⟨l, h1, rfl⟩ := hl y hy
      exact effect_last F S q p op r h' h1

/-- Departures in order, none before its time. -/
def OnTime : List (T × Int) → List (T × Int) → Prop
  | [], _ => True
  | (x, now) :: ds, g :: gs => g.1 = x ∧ g.2 ≤ now ∧ OnTime ds gs
  | _ :: _, [] => False

theorem ontime_aux (F : Fixed) (q p : Nat) (t : List (Op T × Res T)) (S : Lines T)
    (h : Follows F S t) :
    OnTime (departed q p t)
      (S.line q p ++ (grants F q p S t).map fun g => (g.x, g.time)) := by
  induction t generalizing S with
  | nil => trivial
  | cons a t ih =>
    obtain ⟨op, r⟩ := a
    obtain ⟨hok, hf⟩ := h
    have := ih (effect F S op r) hf
    by_cases h : ∃ x t0 t1, op = .push q p x t0 t1 ∧ r = .accepted
    · obtain ⟨x, t0, t1, rfl, rfl⟩ := h
      rw [show departed q p ((Op.push q p x t0 t1, Res.accepted) :: t) = departed q p t from rfl]
      simp only [grants, and_self, if_true]
      rw [show (effect F S (.push q p x t0 t1) .accepted).line q p
        = S.line q p ++ [(x, (S.touch q t0).sched q p t1)] by
          simp [effect, Lines.join, upd2_self]] at this
      simpa using this
    · have h' : ∀ x t0 t1, op = .push q p x t0 t1 → r ≠ .accepted :=
        fun x t0 t1 h1 h2 => h ⟨x, t0, t1, h1, h2⟩
      rw [grants_of_ne F S q p op r t h']
      by_cases h2 : ∃ w now x, op = .pop w now ∧ r = .item q p x
      · obtain ⟨w, now, x, rfl, rfl⟩ := h2
        rcases hok with ⟨h, _⟩ | ⟨_, ⟨h, _⟩ | ⟨q1, p1, x1, h, _, ⟨s, hh, hs, _⟩, _⟩⟩
        · cases h
        · cases h
        · cases h
          simp only [departed, and_self, if_true]
          simp only [effect, Lines.leave, upd2_self] at this ⊢
          cases hl : S.line q p with
          | nil => rw [hl] at hh; simp at hh
          | cons y l =>
            rw [hl] at hh this
            simp only [List.head?_cons, Option.some.injEq] at hh
            subst hh
            exact ⟨rfl, hs, this⟩
      · have hd : departed q p ((op, r) :: t) = departed q p t := by
          cases op with
          | pop w now =>
            cases r with
            | item q' p' x =>
              by_cases hq : q' = q ∧ p' = p
              · obtain ⟨rfl, rfl⟩ := hq
                exact absurd ⟨_, _, _, rfl, rfl⟩ h2
              · simp [departed, hq]
            | _ => rfl
          | _ => cases r <;> rfl
        have hline : (effect F S op r).line q p = S.line q p := by
          cases op with
          | push q' p' x t0 t1 =>
            cases r with
            | accepted =>
              simp only [effect, Lines.join, touch_line]
              by_cases hq : q = q'
              · subst hq
                rw [upd2_q, if_neg]
                rintro rfl
                exact h' _ _ _ rfl rfl
              · exact upd2_of_ne _ _ _ hq
            | _ => rfl
          | pop w now =>
            cases r with
            | item q' p' x =>
              simp only [effect, Lines.leave]
              by_cases hq : q = q'
              · subst hq
                rw [upd2_q, if_neg]
                rintro rfl
                exact h2 ⟨_, _, _, rfl, rfl⟩
              · exact upd2_of_ne _ _ _ hq
            | _ => rfl
          | _ => cases r <;> rfl
        rw [hd]
        rw [hline] at this
        exact this

/-- **C25**, rate: the departure times given to the packets of one line are not before their arrival
and at least one service interval (the one in force at the arrival) apart, and the packets leave in
this order, none before its departure time, whatever the clock shows. -/
theorem C25_rate {F : Fixed} (hpri : F.nbPri ≤ 32) (capacity : Nat) (ops : List (Op T))
    (hn : ops.length < 2 ^ 64) {t s} (hr : run F (init capacity) ops = some (t, s)) (q p : Nat) :
    (grants F q p (emptyLines F capacity) t).map (·.x) = accepted q p t ∧
    Spaced none (grants F q p (emptyLines F capacity) t) ∧
    OnTime (departed q p t)
      ((grants F q p (emptyLines F capacity) t).map fun g => (g.x, g.time)) := by
  obtain ⟨t', s', h1, h2, h3, h4⟩ := run_follows hpri ops (rep_init F capacity) (by omega)
  rw [hr] at h1
  obtain ⟨rfl, rfl⟩ := Prod.mk.inj (Option.some.inj h1)
  clear h4
  refine ⟨?_, spaced_aux F q p t _ none (by simp), ?_⟩
  · generalize emptyLines F capacity = S
    clear h1 h2 h3 hr
    induction t generalizing S with
    | nil => rfl
    | cons a t ih =>
      obtain ⟨op, r⟩ := a
      by_cases h : ∃ x t0 t1, op = .push q p x t0 t1 ∧ r = .accepted
      · obtain ⟨x, t0, t1, rfl, rfl⟩ := h
        simp [grants, accepted, ih]
      · have h' : ∀ x t0 t1, op = .push q p x t0 t1 → r ≠ .accepted :=
          fun x t0 t1 h1 h2 => h ⟨x, t0, t1, h1, h2⟩
        rw [grants_of_ne F S q p op r t h', ih]
        cases op with
        | push q' p' x t0 t1 =>
          cases r with
          | accepted =>
            by_cases hq : q' = q ∧ p' = p
            · obtain ⟨rfl, rfl⟩ := hq
              exact absurd rfl (h' _ _ _ rfl)
            · simp [accepted, hq]
          | _ => rfl
        | _ => cases r <;> rfl
  · simpa [emptyLines] using ontime_aux F q p t (emptyLines F capacity) h3

/-- One worker, two priorities; rates in packets per second. -/
def demoF : Fixed := { nbWorkers := 1, nbPri := 2, worker := fun _ => 0, ticks := fun r => 1000 / r }

/-- A case for C25 and C26: depth, rate, priority, a clock that goes back. -/
example : (run demoF (init 2) [.setRate 7 10 0, .push 7 0 'a' 0 0, .push 7 0 'b' 0 0, .push 7 0 'c' 0 0,
    .push 7 1 'd' 0 150, .pop 0 120, .pop 0 100, .pop 0 199, .pop 0 200, .pop 0 300, .size 7]).map
      (fun r => r.1.map Prod.snd)
    = some [.done, .accepted, .accepted, .refused, .accepted, .item 7 0 'a', .blocked,
        .item 7 1 'd', .item 7 0 'b', .blocked, .size 0] := by decide +kernel

/-- More than 32 priorities: a packet with priority 32 is accepted by the bound check and stored
outside the array of queues. -/
theorem C26_more_than_32 :
    run { demoF with nbPri := 33 } (init 2) [.push 0 32 'a' 0 0] = none := by decide +kernel

end Bm.Queueing
