import Verif.Model.Learning
import Verif.Spec.LearningTrace
import Mathlib.Data.List.Perm.Subperm

/-! # The learning filter and the notifications -/

namespace Bm.Learn

open Spec.Learn

set_option linter.unusedSectionVars false

variable {T : Type} [DecidableEq T]

/-- The calls the implementation can bear: no sample acknowledged twice in part of a notification,
no acknowledgement of the open notification, no reset while the sender is at work. -/
def Safe (S : Notes T) : Op T → Prop
  | .ack b ids => b < S.cur ∧ ids.Nodup ∧ ∀ i ∈ ids, 0 ≤ i ∧ i.toNat ∈ S.unacked b
  | .ackBuffer b => b < S.cur ∧ (S.unacked b = ∅ ∨ ∀ i, S.acked b i = false)
  | .reset => S.busy = false
  | _ => True

/-- The state represents the notifications; `ρ b i` is the identity of the filter element created
for position `i` of notification `b`. -/
structure Rep (s : LL T) (S : Notes T) (ρ : Nat → Nat → Nat) : Prop where
  cur : s.bufferId = S.cur
  buf : s.buffer = S.note S.cur
  num : s.numSamples = s.buffer.length
  future : ∀ b, S.cur < b → S.note b = []
  ackedCur : ∀ b i, S.cur ≤ b → S.acked b i = false
  tmp : s.tmp = (S.closed.map S.note).getD []
  closed : ∀ b, S.closed = some b → b + 1 = S.cur ∧ S.note b ≠ [] ∧ s.numTmp = (S.note b).length
  busy : s.busy = S.busy
  busyClosed : S.busy = true → S.closed ≠ none
  old : ∀ b, s.old.find? b = if S.unacked b = ∅ then none
    else some ⟨(S.unacked b).card, (List.range (S.note b).length).map (ρ b)⟩
  filt : ∀ r x, (r, x) ∈ s.filter ↔ ∃ b i, S.At b i x ∧ ρ b i = r
  inj : ∀ b i b' i', i < (S.note b).length → i' < (S.note b').length → ρ b i = ρ b' i' →
    b = b' ∧ i = i'
  bound : ∀ b i, i < (S.note b).length → ρ b i < s.nextRef
  nodup : (s.filter.map Prod.fst).Nodup
  uniq : ∀ x b i b' i', S.At b i x → S.At b' i' x → b = b' ∧ i = i'
  attended : s.numSamples > 0 → s.numSamples ≥ s.maxSamples → s.waiting > 0

theorem at_lt {S : Notes T} {b i : Nat} {x : T} (h : S.At b i x) : i < (S.note b).length :=
  (List.getElem?_eq_some_iff.1 h.1).1

theorem mem_unacked {S : Notes T} {b i : Nat} :
    i ∈ S.unacked b ↔ i < (S.note b).length ∧ S.acked b i = false := by
  simp [Notes.unacked]

theorem mem_unacked_at {S : Notes T} {b i : Nat} : i ∈ S.unacked b ↔ ∃ x, S.At b i x := by
  rw [mem_unacked]
  constructor
  · rintro ⟨h1, h2⟩
    exact ⟨_, List.getElem?_eq_getElem h1, h2⟩
  · rintro ⟨x, h⟩
    exact ⟨at_lt h, h.2⟩

/-- A notification is not in the book-keeping, or it is with its data. -/
theorem Rep.outstanding {s : LL T} {S : Notes T} {ρ} (h : Rep s S ρ) (x : T) :
    s.filter.any (fun p => p.2 = x) = true ↔ S.Outstanding x := by
  rw [List.any_eq_true]
  constructor
  · rintro ⟨⟨r, y⟩, hm, hy⟩
    obtain rfl : y = x := by simpa using hy
    obtain ⟨b, i, ha, _⟩ := (h.filt _ _).1 hm
    exact ⟨b, i, ha⟩
  · rintro ⟨b, i, ha⟩
    exact ⟨(ρ b i, x), (h.filt _ _).2 ⟨b, i, ha, rfl⟩, by simp⟩

theorem unacked_congr {S S' : Notes T} {b : Nat} (h1 : S'.note b = S.note b)
    (h2 : S'.acked b = S.acked b) : S'.unacked b = S.unacked b := by
  simp [Notes.unacked, h1, h2]

/-- Only the parts outside filter and book-keeping change. -/
theorem Rep.move {s s' : LL T} {S S' : Notes T} {ρ} (h : Rep s S ρ)
    (hn : S'.note = S.note) (ha : S'.acked = S.acked)
    (hf : s'.filter = s.filter) (ho : s'.old = s.old) (hr : s'.nextRef = s.nextRef)
    (cur : s'.bufferId = S'.cur) (buf : s'.buffer = S'.note S'.cur)
    (num : s'.numSamples = s'.buffer.length)
    (hcur : S.cur ≤ S'.cur)
    (tmp : s'.tmp = (S'.closed.map S'.note).getD [])
    (closed : ∀ b, S'.closed = some b →
      b + 1 = S'.cur ∧ S'.note b ≠ [] ∧ s'.numTmp = (S'.note b).length)
    (busy : s'.busy = S'.busy) (busyClosed : S'.busy = true → S'.closed ≠ none)
    (attended : s'.numSamples > 0 → s'.numSamples ≥ s'.maxSamples → s'.waiting > 0) :
    Rep s' S' ρ where
  cur := cur
  buf := buf
  num := num
  future := fun b hb => by rw [hn]; exact h.future b (by omega)
  ackedCur := fun b i hb => by rw [ha]; exact h.ackedCur b i (by omega)
  tmp := tmp
  closed := closed
  busy := busy
  busyClosed := busyClosed
  old := fun b => by
    rw [ho, h.old b, unacked_congr (by rw [hn]) (by rw [ha]), hn]
  filt := fun r x => by
    rw [hf, h.filt]; simp [Notes.At, hn, ha]
  inj := by rw [hn]; exact h.inj
  bound := by rw [hn, hr]; exact h.bound
  nodup := by rw [hf]; exact h.nodup
  uniq := by
    intro x b i b' i' h1 h2
    simp only [Notes.At, hn, ha] at h1 h2
    exact h.uniq x b i b' i' h1 h2
  attended := attended

theorem Rep.tmp_nil {s : LL T} {S : Notes T} {ρ} (h : Rep s S ρ) :
    s.tmp.length = 0 ↔ S.closed = none := by
  rw [h.tmp]
  cases hc : S.closed with
  | none => simp
  | some b =>
    have := (h.closed b hc).2.1
    simp [this]

/-- `swap_buffers` closes the open notification. -/
theorem Rep.swap {s : LL T} {S : Notes T} {ρ} (h : Rep s S ρ) (hc : S.closed = none)
    (w : Nat) (bz : Bool) (hb : bz = true → s.buffer ≠ []) :
    Rep { swapBuffers s with waiting := w, busy := bz } { S.close with busy := bz } ρ := by
  have htmp : s.tmp = [] := by rw [h.tmp, hc]; rfl
  refine h.move rfl rfl rfl rfl rfl (by simp [swapBuffers, Notes.close, h.cur]) ?_
    ?_ (by simp [Notes.close]) ?_ ?_ rfl ?_ (by simp [swapBuffers])
  · simp [swapBuffers, htmp, Notes.close, h.future]
  · simp [swapBuffers, htmp]
  · simp only [swapBuffers, Notes.close, h.buf]
    by_cases he : S.note S.cur = []
    · simp [he]
    · simp [he]
  · intro b hb'
    simp only [Notes.close] at hb'
    split at hb'
    · cases hb'
    · obtain rfl := Option.some.inj hb'
      rename_i hne
      exact ⟨rfl, hne, by simp [swapBuffers, h.num, h.buf, Notes.close]⟩
  · intro hz
    have := hb hz
    rw [h.buf] at this
    simp [Notes.close, this]

theorem Rep.noNewBusy {s : LL T} {S : Notes T} {ρ} (h : Rep s S ρ) (hc : S.closed = none) :
    S.busy = false := by
  cases hb : S.busy with
  | false => rfl
  | true => exact absurd hc (h.busyClosed hb)

theorem Rep.setMaxField {s : LL T} {S : Notes T} {ρ} (h : Rep s S ρ) (n w : Nat)
    (hw : s.numSamples > 0 → s.numSamples ≥ n → w > 0) :
    Rep { s with maxSamples := n, waiting := w } S ρ :=
  h.move rfl rfl rfl rfl rfl h.cur h.buf h.num (le_refl _) h.tmp h.closed h.busy h.busyClosed hw

theorem Rep.processFull' {s : LL T} {S : Notes T} {ρ}
    (h : Rep { s with waiting := s.waiting + 1 } S ρ) :
    ∃ S', Rep (Learn.processFull s) S' ρ ∧ S.MayClose S' := by
  unfold Learn.processFull
  by_cases hc : S.closed = none
  · rw [if_neg (by rw [h.tmp_nil.2 hc]; simp)]
    have hbz := h.noNewBusy hc
    have := h.swap hc s.waiting S.busy (by rw [hbz]; simp)
    refine ⟨S.close, ?_, Or.inr ⟨hc, rfl⟩⟩
    have e : { swapBuffers { s with waiting := s.waiting + 1 } with
        waiting := s.waiting, busy := S.busy } = swapBuffers s := by
      have := h.busy
      simp only at this
      simp [swapBuffers, ← this]
    rw [e] at this
    exact this
  · have : s.tmp.length ≠ 0 := fun h0 => hc (h.tmp_nil.1 h0)
    rw [if_pos this]
    exact ⟨S, h, Or.inl rfl⟩

/-- The new occurrence gets a new identity. -/
theorem Rep.addNew {s : LL T} {S : Notes T} {ρ} (h : Rep s S ρ) {x : T} (hx : ¬ S.Outstanding x)
    (w : Nat) (hw : s.numSamples + 1 ≥ s.maxSamples → w > 0) :
    Rep { s with
      buffer := s.buffer ++ [x]
      numSamples := s.numSamples + 1
      filter := (s.nextRef, x) :: s.filter
      nextRef := s.nextRef + 1
      old := s.old.assign s.bufferId ⟨((s.old.find? s.bufferId).getD {}).unacked + 1,
        ((s.old.find? s.bufferId).getD {}).refs ++ [s.nextRef]⟩
      waiting := w } (S.add x)
      (Function.update ρ S.cur (Function.update (ρ S.cur) (S.note S.cur).length s.nextRef)) := by
  have hnote : ∀ b, (S.add x).note b = if b = S.cur then S.note S.cur ++ [x] else S.note b := by
    intro b; simp [Notes.add, Function.update_apply]
  have hcl : ∀ b, S.closed = some b → b ≠ S.cur := by
    intro b hb; have := (h.closed b hb).1; omega
  have hat : ∀ b i y, (S.add x).At b i y ↔
      S.At b i y ∨ (b = S.cur ∧ i = (S.note S.cur).length ∧ y = x) := by
    intro b i y
    simp only [Notes.At, hnote]
    by_cases hb : b = S.cur
    · subst hb
      simp only [if_true, true_and]
      rw [List.getElem?_append]
      have hac := h.ackedCur S.cur i (le_refl _)
      simp only [Notes.add, hac, and_true]
      split
      · rename_i hlt
        constructor
        · exact Or.inl
        · rintro (h1 | ⟨rfl, _⟩)
          · exact h1
          · omega
      · rename_i hge
        have e : (S.note S.cur)[i]? = none := List.getElem?_eq_none (by omega)
        rw [e]
        simp only [reduceCtorEq, false_or]
        by_cases hi : i = (S.note S.cur).length
        · subst hi; simp [eq_comm]
        · have e2 : [x][i - (S.note S.cur).length]? = none :=
            List.getElem?_eq_none (by simp only [List.length_singleton]; omega)
          rw [e2]
          simp [hi]
    · simp [hb, Notes.add]
  have hρ : ∀ b i, i < (S.note b).length →
      Function.update ρ S.cur (Function.update (ρ S.cur) (S.note S.cur).length s.nextRef) b i
        = ρ b i := by
    intro b i hi
    by_cases hb : b = S.cur
    · subst hb
      rw [Function.update_self, Function.update_of_ne (by omega)]
    · rw [Function.update_of_ne hb]
  have hρn : Function.update ρ S.cur (Function.update (ρ S.cur) (S.note S.cur).length s.nextRef)
      S.cur (S.note S.cur).length = s.nextRef := by simp
  have hun : ∀ b, (S.add x).unacked b
      = if b = S.cur then insert (S.note S.cur).length (S.unacked b) else S.unacked b := by
    intro b
    ext i
    rw [mem_unacked_at]
    simp only [hat]
    by_cases hb : b = S.cur
    · subst hb
      simp only [if_true, Finset.mem_insert, mem_unacked_at, true_and]
      constructor
      · rintro ⟨y, hy | ⟨rfl, rfl⟩⟩
        · exact Or.inr ⟨y, hy⟩
        · exact Or.inl rfl
      · rintro (rfl | ⟨y, hy⟩)
        · exact ⟨x, Or.inr ⟨rfl, rfl⟩⟩
        · exact ⟨y, Or.inl hy⟩
    · simp [hb, mem_unacked_at]
  have hfp : (s.old.find? s.bufferId).getD {}
      = ⟨(S.unacked S.cur).card, (List.range (S.note S.cur).length).map (ρ S.cur)⟩ := by
    rw [h.old, h.cur]
    split
    · rename_i he
      have : S.note S.cur = [] := by
        rw [← List.length_eq_zero_iff]
        by_contra hne
        have : (0 : Nat) ∈ S.unacked S.cur :=
          mem_unacked.2 ⟨by omega, h.ackedCur _ _ (le_refl _)⟩
        rw [he] at this; simp at this
      simp [he, this]
    · rfl
  have hnew : (S.note S.cur).length ∉ S.unacked S.cur := by
    rw [mem_unacked]; simp
  constructor
  · exact h.cur
  · show s.buffer ++ [x] = (S.add x).note S.cur
    rw [hnote, if_pos rfl, h.buf]
  · simp [h.num]
  · intro b hb
    have hb : S.cur < b := hb
    rw [hnote, if_neg (by omega)]; exact h.future b hb
  · exact h.ackedCur
  · show s.tmp = (S.closed.map (S.add x).note).getD []
    rw [h.tmp]
    cases hc : S.closed with
    | none => rfl
    | some b => simp [hnote, hcl b hc]
  · intro b hb
    have hb : S.closed = some b := hb
    rw [hnote, if_neg (hcl b hb)]
    exact h.closed b hb
  · exact h.busy
  · exact h.busyClosed
  · intro b
    simp only
    rw [UMap.find_assign, hun, hfp, h.cur]
    by_cases hb : b = S.cur
    · subst hb
      simp only [if_true, Finset.insert_ne_empty, if_false, Option.some.injEq, FilterPtrs.mk.injEq]
      refine ⟨(Finset.card_insert_of_notMem hnew).symm, ?_⟩
      rw [hnote, if_pos rfl, List.length_append, List.length_singleton, List.range_succ,
        List.map_append, List.map_singleton, hρn]
      congr 1
      refine List.map_congr_left fun i hi => ?_
      rw [hρ S.cur i (List.mem_range.1 hi)]
    · simp only [hb, if_false]
      rw [h.old b, hnote, if_neg hb, Function.update_of_ne hb]
  · intro r y
    simp only [List.mem_cons, Prod.mk.injEq, h.filt, hat]
    constructor
    · rintro (⟨rfl, rfl⟩ | ⟨b, i, ha, hr⟩)
      · exact ⟨S.cur, _, Or.inr ⟨rfl, rfl, rfl⟩, hρn⟩
      · exact ⟨b, i, Or.inl ha, by rw [hρ b i (at_lt ha)]; exact hr⟩
    · rintro ⟨b, i, ha | ⟨rfl, rfl, rfl⟩, hr⟩
      · exact Or.inr ⟨b, i, ha, by rw [← hr, hρ b i (at_lt ha)]⟩
      · exact Or.inl ⟨by rw [← hr, hρn], rfl⟩
  · intro b i b' i' hi hi' he
    have key : ∀ b i, i < ((S.add x).note b).length →
        i < (S.note b).length ∨ (b = S.cur ∧ i = (S.note S.cur).length) := by
      intro b i hi
      rw [hnote] at hi
      by_cases hb : b = S.cur
      · subst hb
        simp only [if_true, List.length_append, List.length_singleton] at hi
        by_cases h2 : i < (S.note S.cur).length
        · exact Or.inl h2
        · exact Or.inr ⟨rfl, by omega⟩
      · rw [if_neg hb] at hi
        exact Or.inl hi
    rcases key b i hi with h1 | ⟨rfl, rfl⟩ <;> rcases key b' i' hi' with h2 | ⟨rfl, rfl⟩
    · rw [hρ b i h1, hρ b' i' h2] at he
      exact h.inj b i b' i' h1 h2 he
    · rw [hρ b i h1, hρn] at he
      have := h.bound b i h1
      omega
    · rw [hρ b' i' h2, hρn] at he
      have := h.bound b' i' h2
      omega
    · exact ⟨rfl, rfl⟩
  · intro b i hi
    simp only
    by_cases h1 : i < (S.note b).length
    · rw [hρ b i h1]
      have := h.bound b i h1; omega
    · rw [hnote] at hi
      by_cases hb : b = S.cur
      · subst hb
        simp only [if_true, List.length_append, List.length_singleton] at hi
        have : i = (S.note S.cur).length := by omega
        subst this
        rw [hρn]; omega
      · rw [if_neg hb] at hi; exact absurd hi h1
  · simp only [List.map_cons, List.nodup_cons]
    refine ⟨fun hm => ?_, h.nodup⟩
    obtain ⟨⟨r, y⟩, hm, hr⟩ := List.mem_map.1 hm
    obtain ⟨b, i, ha, he⟩ := (h.filt _ _).1 hm
    have := h.bound b i (at_lt ha)
    simp only at hr
    omega
  · intro y b i b' i' h1 h2
    rcases (hat _ _ _).1 h1 with h1 | ⟨e1, e2, e3⟩ <;>
      rcases (hat _ _ _).1 h2 with h2 | ⟨e4, e5, e6⟩
    · exact h.uniq y b i b' i' h1 h2
    · exact absurd ⟨b, i, e6 ▸ h1⟩ hx
    · exact absurd ⟨b', i', e3 ▸ h2⟩ hx
    · exact ⟨e1.trans e4.symm, e2.trans e5.symm⟩
  · exact fun _ h2 => hw h2

theorem Rep.learn {s : LL T} {S : Notes T} {ρ} (h : Rep s S ρ) (x : T) :
    ∃ S' ρ', Rep (addSample s x) S' ρ' ∧ Step S (.learn x) .ok S' := by
  unfold addSample
  by_cases hx : S.Outstanding x
  · rw [if_pos ((h.outstanding x).2 hx)]
    exact ⟨S, ρ, h, rfl, Or.inl ⟨hx, rfl⟩⟩
  · rw [if_neg (fun hh => hx ((h.outstanding x).1 hh))]
    simp only
    split
    · rename_i h1
      have := h.addNew hx s.waiting (fun h2 => by omega)
      exact ⟨_, _, this, rfl, Or.inr ⟨hx, Or.inl rfl⟩⟩
    · split
      · rename_i h1 h2
        have := h.addNew hx (s.waiting + 1) (fun _ => by omega)
        obtain ⟨S', h3, h4⟩ := Rep.processFull' (s := { s with
          buffer := s.buffer ++ [x]
          numSamples := s.numSamples + 1
          filter := (s.nextRef, x) :: s.filter
          nextRef := s.nextRef + 1
          old := s.old.assign s.bufferId ⟨((s.old.find? s.bufferId).getD {}).unacked + 1,
            ((s.old.find? s.bufferId).getD {}).refs ++ [s.nextRef]⟩ }) this
        exact ⟨S', _, h3, rfl, Or.inr ⟨hx, h4⟩⟩
      · rename_i h1 h2
        have := h.addNew hx s.waiting (fun h3 => absurd h3 (by simpa using h2))
        exact ⟨_, _, this, rfl, Or.inr ⟨hx, Or.inl rfl⟩⟩

end Bm.Learn
