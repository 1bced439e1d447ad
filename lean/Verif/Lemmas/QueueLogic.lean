import Verif.Spec.QueueLogic
import Mathlib.Data.List.Induction

namespace Bm.QueueLogic

open Spec

variable {T : Type}

/-! ## Maps -/

theorem lookup_front {β : Type} (l : List (Nat × β)) (k k' : Nat) (v : β) :
    ((k, v) :: l).lookup k' = if k' = k then some v else l.lookup k' := by
  rw [List.lookup_cons]
  by_cases h : k' = k
  · subst h; simp
  · simp [beq_eq_false_iff_ne.2 h, h]

theorem lookup_mapVal {β : Type} (l : List (Nat × β)) (g : β → β) (k : Nat) :
    (l.map (fun p => (p.1, g p.2))).lookup k = (l.lookup k).map g := by
  induction l with
  | nil => rfl
  | cons p l ih =>
    obtain ⟨a, b⟩ := p
    rw [List.map_cons, lookup_front, lookup_front, ih]
    split <;> rfl

theorem getQueue_set (s : St T) (q q' : Nat) (i : QInfo) : (s.setQueue q i).getQueue q' = if q' = q then i else s.getQueue q' := by
  simp only [St.setQueue, St.getQueue, lookup_front]
  split <;> rfl

theorem getQueue_touch (s : St T) (q q' : Nat) : (s.setQueue q (s.getQueue q)).getQueue q' = s.getQueue q' := by
  rw [getQueue_set]; split
  · rename_i h; rw [h]
  · rfl

theorem isSome_set (s : St T) (q q' : Nat) (i : QInfo) (h : (s.queues.lookup q').isSome) : ((s.setQueue q i).queues.lookup q').isSome := by
  simp only [St.setQueue, lookup_front]; split
  · rfl
  · exact h

/-! ## Waiters -/

def cnt (p : Waiter T → Bool) (xs : List (Waiter T)) : Nat := xs.countP (fun x => p x && x.woken)

def Un (p : Waiter T → Bool) (xs : List (Waiter T)) : Prop := ∃ x ∈ xs, p x = true ∧ x.woken = false

theorem wakeFirst_spec (p : Waiter T → Bool) (xs : List (Waiter T)) : (wakeFirst p xs = xs ∧ ¬ Un p xs) ∨
    ∃ a x b, xs = a ++ x :: b ∧ p x = true ∧ x.woken = false ∧ wakeFirst p xs = a ++ { x with woken := true } :: b := by
  induction xs with
  | nil => left; exact ⟨rfl, by simp [Un]⟩
  | cons y ys ih =>
    rw [wakeFirst]
    by_cases h : (p y && !y.woken) = true
    · rw [if_pos h]
      simp only [Bool.and_eq_true, Bool.not_eq_true'] at h
      exact .inr ⟨[], y, ys, rfl, h.1, h.2, rfl⟩
    · rw [if_neg h]
      rcases ih with ⟨h1, h2⟩ | ⟨a, x, b, h1, h2, h3, h4⟩
      · left
        refine ⟨by rw [h1], ?_⟩
        rintro ⟨z, hz, hp, hw⟩
        rcases List.mem_cons.1 hz with rfl | hz
        · simp [hp, hw] at h
        · exact h2 ⟨z, hz, hp, hw⟩
      · right
        exact ⟨y :: a, x, b, by rw [h1]; rfl, h2, h3, by rw [h4]; rfl⟩

theorem notifyOne_spec (p : Waiter T → Bool) (i : Nat) (xs : List (Waiter T)) : (notifyOne p i xs = xs ∧ ¬ Un p xs) ∨
    ∃ a x b, xs = a ++ x :: b ∧ p x = true ∧ x.woken = false ∧ notifyOne p i xs = a ++ { x with woken := true } :: b := by
  rw [notifyOne]
  cases h : xs[i]? with
  | none => exact wakeFirst_spec p xs
  | some x =>
    simp only
    split
    · rename_i hp
      simp only [Bool.and_eq_true, Bool.not_eq_true'] at hp
      right
      obtain ⟨hi, hx⟩ := List.getElem?_eq_some_iff.1 h
      obtain ⟨a, b, h1, -, h3⟩ := List.exists_of_set (a' := { x with woken := true }) hi
      rw [hx] at h1
      exact ⟨a, x, b, h1, hp.1, hp.2, h3⟩
    · exact wakeFirst_spec p xs

/-- The condition depends on what the thread waits for only. -/
def Stable (p : Waiter T → Bool) : Prop := ∀ c b b', p ⟨c, b⟩ = p ⟨c, b'⟩

theorem stable_room (q : Nat) : Stable (Waiter.forRoom q : Waiter T → Bool) := fun _ _ _ => rfl

theorem stable_item (w : Nat) : Stable (Waiter.forItem w : Waiter T → Bool) := fun _ _ _ => rfl

theorem cnt_mid (p : Waiter T → Bool) (a b : List (Waiter T)) (x : Waiter T) :
    cnt p (a ++ x :: b) = cnt p (a ++ b) + (if p x && x.woken then 1 else 0) := by
  simp only [cnt, List.countP_append, List.countP_cons]; omega

theorem un_mid (p : Waiter T → Bool) (a b : List (Waiter T)) (x : Waiter T) :
    Un p (a ++ x :: b) ↔ Un p (a ++ b) ∨ (p x = true ∧ x.woken = false) := by
  constructor
  · rintro ⟨y, hy, h⟩
    rcases List.mem_append.1 hy with hy | hy
    · exact .inl ⟨y, List.mem_append.2 (.inl hy), h⟩
    · rcases List.mem_cons.1 hy with rfl | hy
      · exact .inr h
      · exact .inl ⟨y, List.mem_append.2 (.inr hy), h⟩
  · rintro (⟨y, hy, h⟩ | h)
    · refine ⟨y, ?_, h⟩
      rcases List.mem_append.1 hy with hy | hy
      · exact List.mem_append.2 (.inl hy)
      · exact List.mem_append.2 (.inr (List.mem_cons_of_mem _ hy))
    · exact ⟨x, by simp, h⟩

theorem notify_same {p : Waiter T → Bool} (hs : Stable p) {i : Nat} {xs : List (Waiter T)} (h : Un p (notifyOne p i xs)) :
    Un p xs ∧ cnt p (notifyOne p i xs) = cnt p xs + 1 := by
  rcases notifyOne_spec p i xs with ⟨h1, h2⟩ | ⟨a, x, b, h1, h2, h3, h4⟩
  · rw [h1] at h; exact absurd h h2
  · subst h1
    obtain ⟨c, wk⟩ := x
    simp only at h3
    subst h3
    rw [h4]
    refine ⟨(un_mid _ _ _ _).2 (.inr ⟨h2, rfl⟩), ?_⟩
    rw [cnt_mid, cnt_mid]
    have := hs c false true
    simp [h2, ← this]

theorem notify_other {p p' : Waiter T → Bool} (hs : Stable p') (hd : ∀ x, p x = true → p' x = false) (i : Nat) (xs : List (Waiter T)) :
    (Un p' (notifyOne p i xs) ↔ Un p' xs) ∧ cnt p' (notifyOne p i xs) = cnt p' xs := by
  rcases notifyOne_spec p i xs with ⟨h1, h2⟩ | ⟨a, x, b, h1, h2, h3, h4⟩
  · rw [h1]; exact ⟨Iff.rfl, rfl⟩
  · subst h1
    obtain ⟨c, wk⟩ := x
    have hf := hd _ h2
    have hf' : p' ⟨c, true⟩ = false := by rw [hs c true wk]; exact hf
    rw [h4, cnt_mid, cnt_mid, un_mid, un_mid]
    simp [hf, hf']

theorem notify_what (p : Waiter T → Bool) (i : Nat) (xs : List (Waiter T)) :
    (notifyOne p i xs).map Waiter.what = xs.map Waiter.what := by
  rcases notifyOne_spec p i xs with ⟨h1, -⟩ | ⟨a, x, b, h1, -, -, h4⟩
  · rw [h1]
  · rw [h4, h1]; simp

theorem room_item (q w : Nat) (x : Waiter T) (h : x.forRoom q = true) : x.forItem w = false := by
  unfold Waiter.forRoom at h; unfold Waiter.forItem
  split at h <;> simp_all

theorem item_room (q w : Nat) (x : Waiter T) (h : x.forItem w = true) : x.forRoom q = false := by
  unfold Waiter.forItem at h; unfold Waiter.forRoom
  split at h <;> simp_all

theorem room_room {q q' : Nat} (hq : q' ≠ q) (x : Waiter T) (h : x.forRoom q = true) : x.forRoom q' = false := by
  unfold Waiter.forRoom at *
  split at h <;> simp_all [Ne.symm]

theorem item_item {w w' : Nat} (hw : w' ≠ w) (x : Waiter T) (h : x.forItem w = true) : x.forItem w' = false := by
  unfold Waiter.forItem at *
  split at h <;> simp_all [Ne.symm]

/-! ## History -/

theorem pushedFor_snoc (map : Nat → Nat) (w : Nat) (os : List (Out T)) (o : Out T) :
    pushedFor map w (os ++ [o]) = pushedFor map w os ++ pushedFor map w [o] := by simp [pushedFor, List.filterMap_append]

theorem received_snoc (w : Nat) (os : List (Out T)) (o : Out T) :
    received w (os ++ [o]) = received w os ++ received w [o] := by simp [received, List.filterMap_append]

theorem finished_snoc (os : List (Out T)) (o : Out T) : finished (os ++ [o]) = finished os ++ finished [o] := by
  simp [finished, List.filterMap_append]

theorem made_snoc (es : List (Ev T)) (e : Ev T) : made (es ++ [e]) = made es ++ made [e] := by simp [made, List.filterMap_append]

theorem capacity_snoc (cap q : Nat) (es : List (Ev T)) (e : Ev T) :
    capacity cap q (es ++ [e]) = capacity (capacity cap q es) q [e] := by
  induction es generalizing cap with
  | nil => rfl
  | cons f es ih => cases f <;> simp [capacity, ih]

/-! ## The state -/

structure Core (map : Nat → Nat) (nb : Nat) (s : St T) (os : List (Out T)) : Prop where
  len : s.workers.length = nb
  fifo : ∀ (w : Nat) (items : List (T × Nat)), s.workers[w]? = some items → pushedFor map w os = received w os ++ items.reverse
  home : ∀ (w : Nat) (items : List (T × Nat)), s.workers[w]? = some items → ∀ x ∈ items, map x.2 = w ∧ (s.queues.lookup x.2).isSome
  size : ∀ (q : Nat) (items : List (T × Nat)), s.workers[map q]? = some items → (s.getQueue q).size = items.countP (fun x => x.2 = q)

theorem Core.pending {map : Nat → Nat} {nb : Nat} {s : St T} {os : List (Out T)} (h : Core map nb s os) {w : Nat} {items : List (T × Nat)}
    (hw : s.workers[w]? = some items) : pendingFor map w os = items.reverse := by
  rw [pendingFor, h.fifo w items hw, List.drop_left]

theorem Core.inside {map : Nat → Nat} {nb : Nat} {s : St T} {os : List (Out T)} (h : Core map nb s os) {q : Nat} {items : List (T × Nat)}
    (hw : s.workers[map q]? = some items) : Spec.inside map q os = (s.getQueue q).size := by
  rw [Spec.inside, h.pending hw, List.countP_reverse, h.size q items hw]

/-- What a call by `c` may use up. -/
def slackI (c : Call T) (w : Nat) : Nat := if Waiter.forItem w ⟨c, true⟩ then 1 else 0

def slackR (c : Call T) (q : Nat) : Nat := if Waiter.forRoom q ⟨c, true⟩ then 1 else 0

theorem slackI_ne {w w' : Nat} (h : w' ≠ w) : slackI (.pop w : Call T) w' = 0 := by
  simp [slackI, Waiter.forItem, Ne.symm h]

theorem slackR_ne {q q' : Nat} (item : T) (h : q' ≠ q) : slackR (.push q item) q' = 0 := by
  simp [slackR, Waiter.forRoom, Ne.symm h]

def Item (s : St T) (slack : Nat → Nat) : Prop := ∀ (w : Nat) (items : List (T × Nat)), s.workers[w]? = some items →
  Un (Waiter.forItem w) s.waiting → items.length ≤ cnt (Waiter.forItem w) s.waiting + slack w

def Room (s : St T) (slack : Nat → Nat) : Prop := ∀ q, Un (Waiter.forRoom q) s.waiting →
  (s.getQueue q).cap ≤ (s.getQueue q).size + cnt (Waiter.forRoom q) s.waiting + slack q

/-- What is to be shown of the state after a call. -/
structure After (map : Nat → Nat) (nb cap : Nat) (s : St T) (es : List (Ev T)) (os : List (Out T)) (c : Call T) (r : St T × Out T) : Prop where
  out : r.2 = outcome map cap es os c
  core : Core map nb r.1 (os ++ [r.2])
  caps : ∀ q, (r.1.getQueue q).cap = (s.getQueue q).cap
  calls : (r.1.waiting.map Waiter.what ++ finished [r.2]).Perm (s.waiting.map Waiter.what ++ [c])
  item : Item s (slackI c) → Item r.1 (fun _ => 0)
  room : Room s (slackR c) → Room r.1 (fun _ => 0)

theorem push_after {map : Nat → Nat} {nb cap : Nat} {s : St T} {es : List (Ev T)} {os : List (Out T)} (hm : ∀ q, map q < nb)
    (h : Core map nb s os) (hc : ∀ q, (s.getQueue q).cap = capacity cap q es) (q : Nat) (item : T) (i : Nat) :
    After map nb cap s es os (.push q item) (s.push map q item i) := by
  obtain ⟨items, hw⟩ : ∃ items, s.workers[map q]? = some items :=
    ⟨_, List.getElem?_eq_getElem (by rw [h.len]; exact hm q)⟩
  have hlt : map q < s.workers.length := by rw [h.len]; exact hm q
  have hin := h.inside hw
  by_cases hf : (s.getQueue q).size ≥ (s.getQueue q).cap
  · have hr : s.push map q item i =
        ({ s.setQueue q (s.getQueue q) with waiting := s.waiting ++ [⟨.push q item, false⟩] }, .waits) := by
      simp only [St.push]
      rw [show (s.setQueue q (s.getQueue q)).workers = s.workers from rfl, hw]
      simp only [if_pos hf]
      rfl
    rw [hr]
    have hg : ∀ q', ({ s.setQueue q (s.getQueue q) with waiting := s.waiting ++ [⟨.push q item, false⟩] } : St T).getQueue q' =
        s.getQueue q' := fun q' => getQueue_touch s q q'
    refine ⟨?_, ⟨h.len, ?_, ?_, ?_⟩, ?_, ?_, ?_, ?_⟩
    · simp only [outcome]; rw [if_neg]; rw [hin, ← hc]; omega
    · intro w its hits
      rw [pushedFor_snoc, received_snoc]
      simpa [pushedFor, received] using h.fifo w its hits
    · intro w its hits x hx
      have := h.home w its hits x hx
      exact ⟨this.1, isSome_set s q x.2 _ this.2⟩
    · intro q' its hits
      rw [hg]; exact h.size q' its hits
    · intro q'; rw [hg]
    · simp [finished]
    · intro hI w its hits hu
      have hu' : Un (Waiter.forItem w) s.waiting := by
        rcases (un_mid _ _ _ _).1 hu with hu | hu
        · simpa using hu
        · simp [Waiter.forItem] at hu
      have := hI w its hits hu'
      simp only [slackI, Waiter.forItem] at this
      show its.length ≤ cnt _ (s.waiting ++ [_]) + 0
      rw [cnt_mid]
      simp only [List.append_nil]
      simp at this ⊢
      omega
    · intro hR q' hu
      rw [hg]
      by_cases hq : q' = q
      · subst hq; omega
      · have hu' : Un (Waiter.forRoom q') s.waiting := by
          rcases (un_mid _ _ _ _).1 hu with hu | hu
          · simpa using hu
          · simp [Waiter.forRoom] at hu; exact absurd hu.symm hq
        have := hR q' hu'
        rw [slackR_ne item hq] at this
        show _ ≤ _ + cnt _ (s.waiting ++ [_]) + 0
        rw [cnt_mid]
        simp only [List.append_nil]
        omega
  · have hr : s.push map q item i =
        ({ (s.setQueue q (s.getQueue q)).setQueue q { s.getQueue q with size := (s.getQueue q).size + 1 } with
          workers := s.workers.set (map q) ((item, q) :: items)
          waiting := notifyOne (Waiter.forItem (map q)) i s.waiting }, .pushed q item) := by
      simp only [St.push]
      rw [show (s.setQueue q (s.getQueue q)).workers = s.workers from rfl, hw]
      simp only [if_neg hf]
      rfl
    rw [hr]
    have hg : ∀ q', ({ (s.setQueue q (s.getQueue q)).setQueue q { s.getQueue q with size := (s.getQueue q).size + 1 } with
          workers := s.workers.set (map q) ((item, q) :: items)
          waiting := notifyOne (Waiter.forItem (map q)) i s.waiting } : St T).getQueue q' =
        if q' = q then { s.getQueue q with size := (s.getQueue q).size + 1 } else s.getQueue q' := by
      intro q'
      have := getQueue_set (s.setQueue q (s.getQueue q)) q q' { s.getQueue q with size := (s.getQueue q).size + 1 }
      rw [getQueue_touch] at this
      exact this
    have hset : ∀ (w : Nat) (its : List (T × Nat)), (s.workers.set (map q) ((item, q) :: items))[w]? = some its →
        (w = map q ∧ its = (item, q) :: items) ∨ (w ≠ map q ∧ s.workers[w]? = some its) := by
      intro w its hits
      rw [List.getElem?_set] at hits
      by_cases e : map q = w
      · subst e
        simp only [if_true, if_pos hlt] at hits
        exact .inl ⟨rfl, (Option.some.inj hits).symm⟩
      · rw [if_neg e] at hits; exact .inr ⟨fun e' => e e'.symm, hits⟩
    refine ⟨?_, ⟨?_, ?_, ?_, ?_⟩, ?_, ?_, ?_, ?_⟩
    · simp only [outcome]; rw [if_pos]; rw [hin, ← hc]; omega
    · simpa using h.len
    · intro w its hits
      rw [pushedFor_snoc, received_snoc]
      rcases hset w its hits with ⟨rfl, rfl⟩ | ⟨hne, hits⟩
      · have := h.fifo _ _ hw
        simp [pushedFor, received] at this ⊢
        rw [this]; simp
      · have := h.fifo _ _ hits
        simp only [pushedFor, received, List.filterMap_cons, List.filterMap_nil, if_neg (Ne.symm hne), List.append_nil] at this ⊢
        exact this
    · intro w its hits x hx
      have hsome : ∀ q', (s.queues.lookup q').isSome ∨ q' = q →
          (((s.setQueue q (s.getQueue q)).setQueue q { s.getQueue q with size := (s.getQueue q).size + 1 }).queues.lookup q').isSome := by
        rintro q' (hh | rfl)
        · exact isSome_set _ _ _ _ (isSome_set _ _ _ _ hh)
        · simp [St.setQueue]
      rcases hset w its hits with ⟨rfl, rfl⟩ | ⟨hne, hits⟩
      · rcases List.mem_cons.1 hx with rfl | hx
        · exact ⟨rfl, hsome q (.inr rfl)⟩
        · have := h.home _ _ hw x hx
          exact ⟨this.1, hsome _ (.inl this.2)⟩
      · have := h.home _ _ hits x hx
        exact ⟨this.1, hsome _ (.inl this.2)⟩
    · intro q' its hits
      rw [hg]
      rcases hset _ its hits with ⟨hq, rfl⟩ | ⟨hne, hits⟩
      · split
        · rename_i e; subst e
          have := h.size q' items hw
          simp only at this ⊢
          rw [this, List.countP_cons_of_pos (by simp)]
        · rename_i e
          rw [List.countP_cons_of_neg (by simpa using fun e' => e e'.symm)]
          exact h.size q' items (by rw [hq]; exact hw)
      · rw [if_neg (by rintro rfl; exact hne rfl)]
        exact h.size q' its hits
    · intro q'; rw [hg]; split
      · rename_i e; rw [e]
      · rfl
    · simp only [notify_what]; simp [finished]
    · intro hI w its hits hu
      show its.length ≤ cnt _ (notifyOne _ i s.waiting) + 0
      rcases hset w its hits with ⟨rfl, rfl⟩ | ⟨hne, hits⟩
      · obtain ⟨h1, h2⟩ := notify_same (stable_item _) hu
        rw [h2]
        have := hI _ _ hw h1
        simp [slackI, Waiter.forItem] at this ⊢
        omega
      · obtain ⟨h1, h2⟩ := notify_other (stable_item w) (fun x hx => item_item hne x hx) i s.waiting
        rw [h2]
        have := hI _ _ hits (h1.1 hu)
        simp [slackI, Waiter.forItem] at this ⊢
        omega
    · intro hR q' hu
      obtain ⟨h1, h2⟩ := notify_other (stable_room q') (fun x hx => item_room q' (map q) x hx) i s.waiting
      rw [hg]
      show _ ≤ _ + cnt _ (notifyOne _ i s.waiting) + 0
      rw [h2]
      have := hR q' (h1.1 hu)
      split
      · rename_i e; subst e; simp [slackR, Waiter.forRoom] at this ⊢; omega
      · rename_i e
        rw [slackR_ne item e] at this
        omega

theorem pop_after {map : Nat → Nat} {nb cap : Nat} {s : St T} {es : List (Ev T)} {os : List (Out T)}
    (h : Core map nb s os) {w : Nat} (hwn : w < nb) (i : Nat) :
    After map nb cap s es os (.pop w) (s.pop w i) := by
  obtain ⟨items, hw⟩ : ∃ items, s.workers[w]? = some items :=
    ⟨_, List.getElem?_eq_getElem (by rw [h.len]; exact hwn)⟩
  have hlt : w < s.workers.length := by rw [h.len]; exact hwn
  have hp := h.pending hw
  rcases List.eq_nil_or_concat items with rfl | ⟨pre, ⟨item, q⟩, rfl⟩
  · have hr : s.pop w i = ({ s with waiting := s.waiting ++ [⟨.pop w, false⟩] }, .waits) := by
      simp only [St.pop, hw]; rfl
    rw [hr]
    refine ⟨?_, ⟨h.len, ?_, h.home, h.size⟩, fun _ => rfl, ?_, ?_, ?_⟩
    · simp only [outcome, hp]; rfl
    · intro w' its hits
      rw [pushedFor_snoc, received_snoc]
      simpa [pushedFor, received] using h.fifo w' its hits
    · simp [finished]
    · intro hI w' its hits hu
      show its.length ≤ cnt _ (s.waiting ++ [_]) + 0
      by_cases hq : w' = w
      · subst hq
        simp only at hits
        rw [hw] at hits
        simp at hits
        subst hits; simp
      · have hu' : Un (Waiter.forItem w') s.waiting := by
          rcases (un_mid _ _ _ _).1 hu with hu | hu
          · simpa using hu
          · simp [Waiter.forItem] at hu; exact absurd hu.symm hq
        have := hI w' its hits hu'
        rw [slackI_ne hq] at this
        rw [cnt_mid]
        simp only [List.append_nil]
        omega
    · intro hR q' hu
      have hu' : Un (Waiter.forRoom q') s.waiting := by
        rcases (un_mid _ _ _ _).1 hu with hu | hu
        · simpa using hu
        · simp [Waiter.forRoom] at hu
      have := hR q' hu'
      simp only [slackR, Waiter.forRoom] at this
      show _ ≤ _ + cnt _ (s.waiting ++ [_]) + 0
      rw [cnt_mid]
      simp only [List.append_nil]
      simp at this ⊢
      show (s.getQueue q').cap ≤ (s.getQueue q').size + _
      omega
  · rw [List.concat_eq_append] at hw hp
    obtain ⟨hmq, hsome⟩ := h.home w _ hw (item, q) (by simp)
    simp only at hmq hsome
    obtain ⟨info, hinfo⟩ := Option.isSome_iff_exists.1 hsome
    have hgi : s.getQueue q = info := by simp [St.getQueue, hinfo]
    have hr : s.pop w i = ({ s.setQueue q { s.getQueue q with size := (s.getQueue q).size - 1 } with
          workers := s.workers.set w pre
          waiting := notifyOne (Waiter.forRoom q) i s.waiting }, .popped w q item) := by
      simp only [St.pop, hw, List.getLast?_append, List.getLast?_singleton, Option.or, hinfo, List.dropLast_concat, hgi]
    rw [hr]
    have hg : ∀ q', ({ s.setQueue q { s.getQueue q with size := (s.getQueue q).size - 1 } with
          workers := s.workers.set w pre
          waiting := notifyOne (Waiter.forRoom q) i s.waiting } : St T).getQueue q' =
        if q' = q then { s.getQueue q with size := (s.getQueue q).size - 1 } else s.getQueue q' := fun q' => getQueue_set s q q' _
    have hset : ∀ (w' : Nat) (its : List (T × Nat)), (s.workers.set w pre)[w']? = some its →
        (w' = w ∧ its = pre) ∨ (w' ≠ w ∧ s.workers[w']? = some its) := by
      intro w' its hits
      rw [List.getElem?_set] at hits
      by_cases e : w = w'
      · subst e
        simp only [if_true, if_pos hlt] at hits
        exact .inl ⟨rfl, (Option.some.inj hits).symm⟩
      · rw [if_neg e] at hits; exact .inr ⟨fun e' => e e'.symm, hits⟩
    have hsz : (s.getQueue q).size = pre.countP (fun x => x.2 = q) + 1 := by
      rw [h.size q _ (by rw [hmq]; exact hw)]
      simp [List.countP_append]
    refine ⟨?_, ⟨?_, ?_, ?_, ?_⟩, ?_, ?_, ?_, ?_⟩
    · simp only [outcome, hp]
      simp
    · simpa using h.len
    · intro w' its hits
      rw [pushedFor_snoc, received_snoc]
      rcases hset w' its hits with ⟨rfl, rfl⟩ | ⟨hne, hits⟩
      · have := h.fifo _ _ hw
        simp [pushedFor, received] at this ⊢
        rw [this]
      · have := h.fifo _ _ hits
        simp only [pushedFor, received, List.filterMap_cons, List.filterMap_nil, if_neg (Ne.symm hne), List.append_nil] at this ⊢
        exact this
    · intro w' its hits x hx
      rcases hset w' its hits with ⟨rfl, rfl⟩ | ⟨hne, hits⟩
      · have := h.home _ _ hw x (by simp [hx])
        exact ⟨this.1, isSome_set _ _ _ _ this.2⟩
      · have := h.home _ _ hits x hx
        exact ⟨this.1, isSome_set _ _ _ _ this.2⟩
    · intro q' its hits
      rw [hg]
      rcases hset _ its hits with ⟨hq, rfl⟩ | ⟨hne, hits⟩
      · split
        · rename_i e; subst e
          simp only
          omega
        · rename_i e
          have := h.size q' _ (by rw [hq]; exact hw)
          rw [this, List.countP_append]
          have : ([(item, q)] : List (T × Nat)).countP (fun x => decide (x.2 = q')) = 0 := by
            simp; exact fun e' => e e'.symm
          omega
      · rw [if_neg (by rintro rfl; exact hne hmq)]
        exact h.size q' its hits
    · intro q'; rw [hg]; split
      · rename_i e; rw [e]
      · rfl
    · simp only [notify_what]; simp [finished]
    · intro hI w' its hits hu
      show its.length ≤ cnt _ (notifyOne _ i s.waiting) + 0
      obtain ⟨h1, h2⟩ := notify_other (stable_item w') (fun x hx => room_item q w' x hx) i s.waiting
      rw [h2]
      rcases hset w' its hits with ⟨rfl, rfl⟩ | ⟨hne, hits⟩
      · have := hI _ _ hw (h1.1 hu)
        simp [slackI, Waiter.forItem] at this ⊢
        omega
      · have := hI _ _ hits (h1.1 hu)
        rw [slackI_ne hne] at this
        omega
    · intro hR q' hu
      rw [hg]
      show _ ≤ _ + cnt _ (notifyOne _ i s.waiting) + 0
      by_cases e : q' = q
      · subst e
        obtain ⟨h1, h2⟩ := notify_same (stable_room _) hu
        have := hR q' h1
        simp [slackR, Waiter.forRoom] at this ⊢
        rw [h2]
        omega
      · obtain ⟨h1, h2⟩ := notify_other (stable_room q') (fun x hx => room_room e x hx) i s.waiting
        have := hR q' (h1.1 hu)
        simp [slackR, Waiter.forRoom] at this ⊢
        rw [h2, if_neg e]
        omega

theorem run_after {map : Nat → Nat} {nb cap : Nat} {s : St T} {es : List (Ev T)} {os : List (Out T)} (hm : ∀ q, map q < nb)
    (h : Core map nb s os) (hc : ∀ q, (s.getQueue q).cap = capacity cap q es) {c : Call T} (hk : ∀ w, c = .pop w → w < nb) (i : Nat) :
    After map nb cap s es os c (s.run map c i) := by
  cases c with
  | push q item => exact push_after hm h hc q item i
  | pop w => exact pop_after h (hk w rfl) i

/-! ## Runs -/

structure Inv (map : Nat → Nat) (nb cap : Nat) (s : St T) (es : List (Ev T)) (os : List (Out T)) : Prop where
  core : Core map nb s os
  caps : ∀ q, (s.getQueue q).cap = capacity cap q es
  calls : (s.waiting.map Waiter.what ++ finished os).Perm (made es)
  item : Item s (fun _ => 0)

theorem core_quiet {map : Nat → Nat} {nb : Nat} {s : St T} {os : List (Out T)} (h : Core map nb s os) : Core map nb s (os ++ [.quiet]) := by
  refine ⟨h.len, ?_, h.home, h.size⟩
  intro w its hits
  rw [pushedFor_snoc, received_snoc]
  simpa [pushedFor, received] using h.fifo w its hits

/-- What one event does. -/
structure Stepped (map : Nat → Nat) (nb cap : Nat) (s : St T) (es : List (Ev T)) (os : List (Out T)) (e : Ev T) : Prop where
  inv : Inv map nb cap (s.step map e).1 (es ++ [e]) (os ++ [(s.step map e).2])
  room : NoRaise cap es e → Room s (fun _ => 0) → Room (s.step map e).1 (fun _ => 0)
  call : ∀ c i, e = .call c i → (s.step map e).2 = outcome map cap es os c
  resume : ∀ k i x, e = .resume k i → s.waiting[k]? = some x → x.woken = true → (s.step map e).2 = outcome map cap es os x.what

theorem erase_split {xs : List (Waiter T)} {k : Nat} {x : Waiter T} (h : xs[k]? = some x) :
    ∃ a b, xs = a ++ x :: b ∧ xs.eraseIdx k = a ++ b ∧ ∀ y, xs.set k y = a ++ y :: b := by
  obtain ⟨hi, hx⟩ := List.getElem?_eq_some_iff.1 h
  refine ⟨xs.take k, xs.drop (k + 1), ?_, ?_, ?_⟩
  · rw [← hx]; simp
  · rw [List.eraseIdx_eq_take_drop_succ]
  · intro y; rw [List.set_eq_take_append_cons_drop, if_pos hi]

theorem step_spec {map : Nat → Nat} {nb cap : Nat} {s : St T} {es : List (Ev T)} {os : List (Out T)} (hm : ∀ q, map q < nb)
    (h : Inv map nb cap s es os) {e : Ev T} (hk : Known nb (es ++ [e])) : Stepped map nb cap s es os e := by
  cases e with
  | call c i =>
    have ha := run_after (cap := cap) (es := es) hm h.core h.caps (c := c) (by
      rintro w rfl; exact hk w i (by simp)) i
    refine ⟨⟨ha.core, fun q => ?_, ?_, ?_⟩, ?_, ?_, ?_⟩
    · rw [capacity_snoc]; exact (ha.caps q).trans (h.caps q)
    · rw [finished_snoc, made_snoc]
      show ((s.run map c i).1.waiting.map Waiter.what ++ (finished os ++ finished [(s.run map c i).2])).Perm (made es ++ [c])
      have h1 := ha.calls
      have h2 := h.calls
      calc ((s.run map c i).1.waiting.map Waiter.what ++ (finished os ++ finished [(s.run map c i).2])).Perm
            (((s.run map c i).1.waiting.map Waiter.what ++ finished [(s.run map c i).2]) ++ finished os) := by
              rw [List.append_assoc]; exact List.Perm.append_left _ List.perm_append_comm
        _ |>.Perm ((s.waiting.map Waiter.what ++ [c]) ++ finished os) := h1.append_right _
        _ |>.Perm ((s.waiting.map Waiter.what ++ finished os) ++ [c]) := by
              rw [List.append_assoc, List.append_assoc]; exact List.Perm.append_left _ List.perm_append_comm
        _ |>.Perm (made es ++ [c]) := h2.append_right _
    · exact ha.item (fun w its hw hu => Nat.le_add_right_of_le (h.item w its hw hu))
    · intro _ hR
      exact ha.room (fun q hu => Nat.le_add_right_of_le (hR q hu))
    · rintro c' i' he; injection he with h1 h2; subst h1; exact ha.out
    · intro k i' x he; cases he
  | resume k i =>
    have noop : s.step map (.resume k i) = (s, .quiet) → (∀ x, s.waiting[k]? = some x → x.woken = false) →
        Stepped map nb cap s es os (.resume k i) := by
      intro hs hx
      refine ⟨?_, ?_, ?_, ?_⟩
      · rw [hs]
        refine ⟨core_quiet h.core, fun q => ?_, ?_, h.item⟩
        · rw [capacity_snoc]; exact h.caps q
        · rw [finished_snoc, made_snoc]; simpa [finished, made] using h.calls
      · rw [hs]; exact fun _ hR => hR
      · intro c i' he; cases he
      · intro k' i' x he hx' hw
        injection he with h1 h2; subst h1
        rw [hx x hx'] at hw; simp at hw
    cases hx : s.waiting[k]? with
    | none => exact noop (by simp [St.step, hx]) (by intro y hy; rw [hx] at hy; cases hy)
    | some x =>
      by_cases hw : x.woken = true
      · obtain ⟨a, b, h1, h2, -⟩ := erase_split hx
        obtain ⟨c, wk⟩ := x
        simp only at hw
        subst hw
        have hst : s.step map (.resume k i) = { s with waiting := a ++ b }.run map c i := by
          simp [St.step, hx, h2]
        have hcore : Core map nb { s with waiting := a ++ b } os := ⟨h.core.len, h.core.fifo, h.core.home, h.core.size⟩
        have hmem : c ∈ made es := h.calls.subset (by rw [h1]; simp)
        have ha := run_after (cap := cap) (es := es) hm hcore h.caps (c := c) (by
          rintro w rfl
          obtain ⟨e, he, hee⟩ := List.mem_filterMap.1 hmem
          cases e with
          | call c' j =>
            simp only [Option.some.injEq] at hee
            subst hee
            exact hk w j (List.mem_append.2 (.inl he))
          | _ => simp at hee) i
        refine ⟨?_, ?_, ?_, ?_⟩
        · rw [hst]
          refine ⟨ha.core, fun q => ?_, ?_, ?_⟩
          · rw [capacity_snoc]; exact (ha.caps q).trans (h.caps q)
          · rw [finished_snoc, made_snoc]
            generalize hr : ({ s with waiting := a ++ b } : St T).run map c i = r at ha ⊢
            have g1 := ha.calls
            have g2 := h.calls
            rw [h1] at g2
            simp only at g1
            have e1 : (r.1.waiting.map Waiter.what ++ (finished os ++ finished [r.2])).Perm
                ((r.1.waiting.map Waiter.what ++ finished [r.2]) ++ finished os) := by
              rw [List.append_assoc]; exact List.Perm.append_left _ List.perm_append_comm
            have e2 : (((a ++ b).map Waiter.what ++ [c])).Perm ((a ++ ⟨c, true⟩ :: b).map Waiter.what) := by
              rw [List.map_append, List.map_append, List.map_cons, List.append_assoc]
              exact List.Perm.append_left _ (List.perm_append_comm (l₁ := b.map Waiter.what) (l₂ := [c]))
            have e3 := e1.trans ((g1.trans e2).append_right (finished os))
            simpa [made] using e3.trans g2
          · apply ha.item
            intro w its hits hu
            have hu' : Un (Waiter.forItem w) s.waiting := by
              rw [h1, un_mid]; exact .inl hu
            have := h.item w its hits hu'
            rw [h1, cnt_mid] at this
            simp only [slackI]
            simp only [Bool.and_true] at this
            omega
        · intro _ hR
          rw [hst]
          apply ha.room
          intro q hu
          have hu' : Un (Waiter.forRoom q) s.waiting := by
            rw [h1, un_mid]; exact .inl hu
          have := hR q hu'
          rw [h1, cnt_mid] at this
          simp only [slackR]
          simp only [Bool.and_true] at this
          show (s.getQueue q).cap ≤ (s.getQueue q).size + cnt _ (a ++ b) + _
          omega
        · intro c' i' he; cases he
        · intro k' i' x' he hx' _
          injection he with g1 g2; subst g1
          rw [hx] at hx'
          obtain rfl := Option.some.inj hx'
          rw [hst]; exact ha.out
      · exact noop (by simp [St.step, hx, hw]) (by intro y hy; rw [hx] at hy; obtain rfl := Option.some.inj hy; simpa using hw)
  | spurious k =>
    have hq : (s.step map (.spurious k)).2 = .quiet := by
      simp only [St.step]; split <;> rfl
    have hcall : ∀ c i, (Ev.spurious k : Ev T) = .call c i → (s.step map (.spurious k)).2 = outcome map cap es os c := by
      intro c i he; cases he
    have hres : ∀ k' i (x : Waiter T), (Ev.spurious k : Ev T) = .resume k' i → s.waiting[k']? = some x → x.woken = true →
        (s.step map (.spurious k)).2 = outcome map cap es os x.what := by intro k' i x he; cases he
    cases hx : s.waiting[k]? with
    | none =>
      have hs : s.step map (.spurious k) = (s, .quiet) := by simp [St.step, hx]
      refine ⟨?_, ?_, hcall, hres⟩
      · rw [hs]
        refine ⟨core_quiet h.core, fun q => ?_, ?_, h.item⟩
        · rw [capacity_snoc]; exact h.caps q
        · rw [finished_snoc, made_snoc]; simpa [finished, made] using h.calls
      · rw [hs]; exact fun _ hR => hR
    | some x =>
      obtain ⟨a, b, h1, -, h3⟩ := erase_split hx
      have hs : s.step map (.spurious k) = ({ s with waiting := a ++ { x with woken := true } :: b }, .quiet) := by
        simp [St.step, hx, h3]
      have hcnt : ∀ p : Waiter T → Bool, Stable p → (Un p (a ++ { x with woken := true } :: b) → Un p s.waiting) ∧
          cnt p s.waiting ≤ cnt p (a ++ { x with woken := true } :: b) := by
        intro p hp
        obtain ⟨c, wk⟩ := x
        rw [h1, un_mid, un_mid, cnt_mid, cnt_mid]
        refine ⟨fun hh => hh.imp id (by simp), ?_⟩
        have := hp c wk true
        simp only at this ⊢
        rw [← this]
        cases p ⟨c, wk⟩ <;> cases wk <;> simp
      refine ⟨?_, ?_, hcall, hres⟩
      · rw [hs]
        refine ⟨core_quiet ⟨h.core.len, h.core.fifo, h.core.home, h.core.size⟩, fun q => ?_, ?_, ?_⟩
        · rw [capacity_snoc]; exact h.caps q
        · rw [finished_snoc, made_snoc]
          have := h.calls
          rw [h1] at this
          simpa [finished, made] using this
        · intro w its hits hu
          obtain ⟨g1, g2⟩ := hcnt _ (stable_item w)
          exact Nat.le_trans (h.item w its hits (g1 hu)) (Nat.add_le_add_right g2 0)
      · rw [hs]
        intro _ hR q hu
        obtain ⟨g1, g2⟩ := hcnt _ (stable_room q)
        have := hR q (g1 hu)
        show (s.getQueue q).cap ≤ (s.getQueue q).size + cnt _ (a ++ { x with woken := true } :: b) + 0
        simp only at this
        omega
  | setCapacity q c =>
    have hg : ∀ q', (s.setCapacity q c).getQueue q' = if q' = q then { s.getQueue q with cap := c } else s.getQueue q' :=
      fun q' => getQueue_set s q q' _
    refine ⟨⟨core_quiet ⟨h.core.len, h.core.fifo, ?_, ?_⟩, fun q' => ?_, ?_, h.item⟩, ?_, ?_, ?_⟩
    · intro w its hits x hx
      have := h.core.home w its hits x hx
      exact ⟨this.1, isSome_set _ _ _ _ this.2⟩
    · intro q' its hits
      show ((s.setCapacity q c).getQueue q').size = _
      have := h.core.size q' its hits
      rw [hg]; split
      · rename_i e; subst e; exact this
      · exact this
    · rw [capacity_snoc]
      show ((s.setCapacity q c).getQueue q').cap = _
      rw [hg]
      simp only [capacity]
      by_cases e : q' = q
      · rw [if_pos e, if_pos e.symm]
      · rw [if_neg e, if_neg (Ne.symm e)]; exact h.caps q'
    · rw [finished_snoc, made_snoc]; 
      show (s.waiting.map Waiter.what ++ (finished os ++ [])).Perm (made es ++ [])
      rw [List.append_nil, List.append_nil]; exact h.calls
    · intro hn hR q' hu
      have := hR q' hu
      show ((s.setCapacity q c).getQueue q').cap ≤ ((s.setCapacity q c).getQueue q').size + cnt _ s.waiting + 0
      rw [hg]
      split
      · rename_i e; subst e
        have h1 : c ≤ capacity cap q' es := hn
        rw [← h.caps] at h1
        simp only at this ⊢
        omega
      · exact this
    · intro c i he; cases he
    · intro k' i x he; cases he
  | setCapacityForAll c =>
    have hg : ∀ q', (s.setCapacityForAll c).getQueue q' = { s.getQueue q' with cap := c } := by
      intro q'
      simp only [St.setCapacityForAll, St.getQueue, lookup_mapVal (g := fun p : QInfo => { p with cap := c })]
      cases s.queues.lookup q' <;> rfl
    refine ⟨⟨core_quiet ⟨h.core.len, h.core.fifo, ?_, ?_⟩, fun q' => ?_, ?_, h.item⟩, ?_, ?_, ?_⟩
    · intro w its hits x hx
      have := h.core.home w its hits x hx
      refine ⟨this.1, ?_⟩
      simp only [St.step, St.setCapacityForAll, lookup_mapVal (g := fun p : QInfo => { p with cap := c }), Option.isSome_map]
      exact this.2
    · intro q' its hits
      show ((s.setCapacityForAll c).getQueue q').size = _
      rw [hg]; exact h.core.size q' its hits
    · rw [capacity_snoc]
      show ((s.setCapacityForAll c).getQueue q').cap = _
      rw [hg]; rfl
    · rw [finished_snoc, made_snoc]; 
      show (s.waiting.map Waiter.what ++ (finished os ++ [])).Perm (made es ++ [])
      rw [List.append_nil, List.append_nil]; exact h.calls
    · intro hn hR q' hu
      have := hR q' hu
      show ((s.setCapacityForAll c).getQueue q').cap ≤ ((s.setCapacityForAll c).getQueue q').size + cnt _ s.waiting + 0
      rw [hg]
      have h1 : c ≤ capacity cap q' es := hn q'
      rw [← h.caps] at h1
      simp only at this ⊢
      omega
    · intro c i he; cases he
    · intro k' i x he; cases he

theorem steps_snoc (map : Nat → Nat) (s : St T) (es : List (Ev T)) (e : Ev T) :
    s.steps map (es ++ [e]) = (((s.steps map es).1.step map e).1, (s.steps map es).2 ++ [((s.steps map es).1.step map e).2]) := by
  induction es generalizing s with
  | nil => rfl
  | cons f es ih => simp only [List.cons_append, St.steps, ih]

theorem steps_append (map : Nat → Nat) (s : St T) (a b : List (Ev T)) :
    s.steps map (a ++ b) = (((s.steps map a).1.steps map b).1, (s.steps map a).2 ++ ((s.steps map a).1.steps map b).2) := by
  induction a generalizing s with
  | nil => rfl
  | cons f a ih => simp only [List.cons_append, St.steps, ih]

theorem steps_length (map : Nat → Nat) (s : St T) (a : List (Ev T)) : (s.steps map a).2.length = a.length := by
  induction a generalizing s with
  | nil => rfl
  | cons f a ih => simp [St.steps, ih]

/-- The results of the events before `e`, and the one of `e`. -/
theorem steps_at (map : Nat → Nat) (s : St T) (a b : List (Ev T)) (e : Ev T) :
    (s.steps map (a ++ e :: b)).2.take a.length = (s.steps map a).2 ∧
      (s.steps map (a ++ e :: b)).2[a.length]? = some ((s.steps map a).1.step map e).2 := by
  rw [steps_append]
  have hl := steps_length map s a
  refine ⟨?_, ?_⟩
  · simp only; rw [← hl, List.take_left]
  · simp only; rw [← hl, List.getElem?_append_right (Nat.le_refl _)]
    simp [St.steps]

theorem inv_make (map : Nat → Nat) (nb cap : Nat) : Inv map nb cap (St.make nb cap : St T) [] [] := by
  have hrep : ∀ (w : Nat) (items : List (T × Nat)), (List.replicate nb ([] : List (T × Nat)))[w]? = some items → items = [] := by
    intro w items hh
    rw [List.getElem?_replicate] at hh
    split at hh
    · exact (Option.some.inj hh).symm
    · simp at hh
  refine ⟨⟨by simp [St.make], ?_, ?_, ?_⟩, fun q => by simp [St.make, St.getQueue, capacity], by simp [St.make, finished, made], ?_⟩
  · intro w items hh; rw [hrep w items hh]; simp [pushedFor, received]
  · intro w items hh; rw [hrep w items hh]; simp
  · intro q items hh; rw [hrep _ items hh]; simp [St.make, St.getQueue]
  · rintro w items hh ⟨x, hx, -⟩; simp [St.make] at hx

theorem inv_run {map : Nat → Nat} {nb : Nat} (cap : Nat) (hm : ∀ q, map q < nb) (es : List (Ev T)) (hk : Known nb es) :
    Inv map nb cap ((St.make nb cap).steps map es).1 es ((St.make nb cap).steps map es).2 := by
  induction es using List.reverseRecOn with
  | nil => exact inv_make map nb cap
  | append_singleton es e ih =>
    rw [steps_snoc]
    exact (step_spec hm (ih (fun w i hh => hk w i (List.mem_append.2 (.inl hh)))) hk).inv

theorem room_run {map : Nat → Nat} {nb : Nat} (cap : Nat) (hm : ∀ q, map q < nb) (es : List (Ev T)) (hk : Known nb es)
    (hn : NeverRaised cap es) : Room ((St.make nb cap).steps map es).1 (fun _ => 0) := by
  induction es using List.reverseRecOn with
  | nil => rintro q ⟨x, hx, -⟩; simp [St.steps, St.make] at hx
  | append_singleton es e ih =>
    rw [steps_snoc]
    have hk' : Known nb es := fun w i hh => hk w i (List.mem_append.2 (.inl hh))
    exact (step_spec hm (inv_run cap hm es hk') hk).room (hn es e [] rfl)
      (ih hk' (fun a f b hh => hn a f (b ++ [e]) (by rw [hh]; simp)))

end Bm.QueueLogic
