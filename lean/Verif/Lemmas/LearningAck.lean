import Verif.Lemmas.Learning

/-! # Acknowledgements -/

namespace Bm.Learn

open Spec.Learn

set_option linter.unusedSectionVars false

variable {T : Type} [DecidableEq T]

theorem eraseRef_of_mem {filter : List (Nat × T)} {r : Nat} (h : r ∈ filter.map Prod.fst) :
    eraseRef filter r = some (filter.filter fun p => p.1 ≠ r) := by
  obtain ⟨p, hp, rfl⟩ := List.mem_map.1 h
  rw [eraseRef, if_pos]
  exact List.any_eq_true.2 ⟨p, hp, by simp⟩

/-- Removing several elements. -/
def without (filter : List (Nat × T)) (rs : List Nat) : List (Nat × T) :=
  filter.filter fun p => decide (p.1 ∉ rs)

theorem without_cons (filter : List (Nat × T)) (r : Nat) (rs : List Nat) :
    without (filter.filter fun p => p.1 ≠ r) rs = without filter (r :: rs) := by
  simp only [without, List.filter_filter]
  refine List.filter_congr fun p _ => ?_
  by_cases h : p.1 = r <;> simp [h]

theorem mem_fst_filter {filter : List (Nat × T)} {r r' : Nat} (h : r' ∈ filter.map Prod.fst)
    (hne : r' ≠ r) : r' ∈ (filter.filter fun p => p.1 ≠ r).map Prod.fst := by
  obtain ⟨p, hp, rfl⟩ := List.mem_map.1 h
  exact List.mem_map.2 ⟨p, List.mem_filter.2 ⟨hp, by simpa using hne⟩, rfl⟩

theorem eraseAll_spec (rs : List Nat) (filter : List (Nat × T)) (hn : rs.Nodup)
    (hm : ∀ r ∈ rs, r ∈ filter.map Prod.fst) :
    eraseAll rs filter = some (without filter rs) := by
  induction rs generalizing filter with
  | nil => simp [eraseAll, without]
  | cons r rs ih =>
    rw [List.nodup_cons] at hn
    simp only [eraseAll, eraseRef_of_mem (hm r (by simp)), Option.bind_eq_bind, Option.bind_some]
    rw [ih _ hn.2, without_cons]
    intro r' hr'
    refine mem_fst_filter (hm r' (by simp [hr'])) ?_
    rintro rfl
    exact hn.1 hr'

/-- The loop of `ack` when every id is valid and not yet acknowledged. -/
theorem ackLoop_spec (ρ : Nat → Nat) (ids : List Int) (p : FilterPtrs) (u : Finset Nat)
    (filter : List (Nat × T)) (hid : ids.Nodup) (hu : ∀ i ∈ ids, 0 ≤ i ∧ i.toNat ∈ u)
    (hp : ∀ i ∈ u, p.refs[i]? = some (ρ i)) (hc : p.unacked = u.card) (hne : u ≠ ∅)
    (hinj : ∀ i ∈ u, ∀ j ∈ u, ρ i = ρ j → i = j)
    (hm : ∀ i ∈ u, ρ i ∈ filter.map Prod.fst) :
    ackLoop ids (some p) filter = some
      (if u \ (ids.map Int.toNat).toFinset = ∅ then none
        else some { p with unacked := (u \ (ids.map Int.toNat).toFinset).card },
       without filter (ids.map fun i => ρ i.toNat)) := by
  induction ids generalizing p u filter with
  | nil => simp [ackLoop, without, hne, ← hc]
  | cons i is ih =>
    obtain ⟨h0, hi⟩ := hu i (by simp)
    rw [List.nodup_cons] at hid
    have hcard : 0 < u.card := Finset.card_pos.2 ⟨_, hi⟩
    simp only [ackLoop, show ¬ i < 0 by omega, if_false, hp _ hi, eraseRef_of_mem (hm _ hi),
      Option.bind_eq_bind, Option.bind_some]
    have hdec : dec p.unacked = (u.erase i.toNat).card := by
      rw [Finset.card_erase_of_mem hi, hc, dec, if_neg (by omega)]
    rw [hdec]
    have hsd : u \ ((i :: is).map Int.toNat).toFinset
        = (u.erase i.toNat) \ (is.map Int.toNat).toFinset := by
      ext j
      simp only [List.map_cons, List.toFinset_cons, Finset.mem_sdiff, Finset.mem_insert,
        Finset.mem_erase, not_or]
      tauto
    have hu' : ∀ j ∈ is, 0 ≤ j ∧ j.toNat ∈ u.erase i.toNat := by
      intro j hj
      obtain ⟨h1, h2⟩ := hu j (by simp [hj])
      refine ⟨h1, Finset.mem_erase.2 ⟨fun he => ?_, h2⟩⟩
      have : i = j := by omega
      exact hid.1 (this ▸ hj)
    rw [hsd]
    by_cases he : u.erase i.toNat = ∅
    · have : is = [] := by
        cases is with
        | nil => rfl
        | cons j js =>
          have := (hu' j (by simp)).2
          rw [he] at this; simp at this
      subst this
      simp [he, ackLoop, without]
    · rw [if_neg (by simpa [Finset.card_eq_zero] using he)]
      rw [ih ⟨(u.erase i.toNat).card, p.refs⟩ (u.erase i.toNat) _ hid.2 hu'
        (fun j hj => hp j (Finset.mem_of_mem_erase hj)) rfl he
        (fun j hj k hk => hinj j (Finset.mem_of_mem_erase hj) k (Finset.mem_of_mem_erase hk))
        (fun j hj => mem_fst_filter (hm j (Finset.mem_of_mem_erase hj)) fun hh =>
          Finset.ne_of_mem_erase hj (hinj j (Finset.mem_of_mem_erase hj) _ hi hh))]
      rw [List.map_cons, without_cons]

/-- The references of the unacknowledged positions are live. -/
theorem Rep.live {s : LL T} {S : Notes T} {ρ} (h : Rep s S ρ) {b i : Nat} (hi : i ∈ S.unacked b) :
    ρ b i ∈ s.filter.map Prod.fst := by
  obtain ⟨x, hx⟩ := mem_unacked_at.1 hi
  exact List.mem_map.2 ⟨(ρ b i, x), (h.filt _ _).2 ⟨b, i, hx, rfl⟩, rfl⟩

/-- Acknowledging positions `D` of notification `b`, in general. -/
theorem Rep.acked {s : LL T} {S : Notes T} {ρ} (h : Rep s S ρ) (b : Nat) (hb : b < S.cur)
    (a : Nat → Bool) (filter : List (Nat × T)) (old : UMap FilterPtrs)
    (ha : ∀ i, S.acked b i = true → a i = true)
    (hold : ∀ b', b' ≠ b → old.find? b' = s.old.find? b')
    (holdb : old.find? b = if ({ S with acked := Function.update S.acked b a } : Notes T).unacked b = ∅
      then none else some ⟨(({ S with acked := Function.update S.acked b a } : Notes T).unacked b).card,
        (List.range (S.note b).length).map (ρ b)⟩)
    (hsub : filter.Sublist s.filter)
    (hf : ∀ r x, (r, x) ∈ s.filter →
      ((r, x) ∈ filter ↔ ¬ ∃ i ∈ S.unacked b, a i = true ∧ ρ b i = r)) :
    Rep { s with filter := filter, old := old } { S with acked := Function.update S.acked b a } ρ := by
  have hat : ∀ b' i x, ({ S with acked := Function.update S.acked b a } : Notes T).At b' i x ↔
      S.At b' i x ∧ ¬ (b' = b ∧ a i = true) := by
    intro b' i x
    simp only [Notes.At]
    by_cases hbb : b' = b
    · subst hbb
      simp only [Function.update_self, true_and]
      cases hai : a i with
      | true => simp
      | false =>
        have : S.acked b' i = false := by
          cases hs : S.acked b' i with
          | false => rfl
          | true => rw [ha i hs] at hai; cases hai
        simp [this]
    · simp [Function.update_of_ne hbb, hbb]
  refine ⟨h.cur, h.buf, h.num, h.future, ?_, h.tmp, h.closed, h.busy, h.busyClosed, ?_, ?_, h.inj,
    h.bound, h.nodup.sublist (hsub.map _), ?_, h.attended⟩
  · intro b' i hb'
    have hb' : S.cur ≤ b' := hb'
    have hbb : b' ≠ b := by omega
    show Function.update S.acked b a b' i = false
    rw [Function.update_of_ne hbb]
    exact h.ackedCur b' i hb'
  · intro b'
    by_cases hbb : b' = b
    · subst hbb; exact holdb
    · show old.find? b' = _
      rw [hold b' hbb, h.old b']
      rw [unacked_congr (S := S) (S' := { S with acked := Function.update S.acked b a }) rfl
        (Function.update_of_ne hbb _ _)]
  · intro r x
    simp only [hat]
    constructor
    · intro hm
      have hm0 := hsub.subset hm
      obtain ⟨b', i, h1, h2⟩ := (h.filt r x).1 hm0
      refine ⟨b', i, ⟨h1, ?_⟩, h2⟩
      rintro ⟨rfl, hai⟩
      exact (hf r x hm0).1 hm ⟨i, mem_unacked_at.2 ⟨x, h1⟩, hai, h2⟩
    · rintro ⟨b', i, ⟨h1, h2⟩, h3⟩
      have hm0 := (h.filt r x).2 ⟨b', i, h1, h3⟩
      refine (hf r x hm0).2 ?_
      rintro ⟨j, hj, hja, hjr⟩
      obtain ⟨rfl, rfl⟩ := h.inj b' i b j (at_lt h1) (mem_unacked.1 hj).1 (h3.trans hjr.symm)
      exact h2 ⟨rfl, hja⟩
  · intro x b1 i1 b2 i2 h1 h2
    exact h.uniq x b1 i1 b2 i2 ((hat _ _ _).1 h1).1 ((hat _ _ _).1 h2).1

theorem Rep.ack {s : LL T} {S : Notes T} {ρ} (h : Rep s S ρ) (b : Nat) (ids : List Int)
    (hs : Safe S (.ack b ids)) :
    ∃ s', ack s b ids = some s' ∧ Rep s' (S.ack b (ids.map Int.toNat)) ρ := by
  obtain ⟨hb, hnd, hids⟩ := hs
  have hun : (S.ack b (ids.map Int.toNat)).unacked b
      = S.unacked b \ (ids.map Int.toNat).toFinset := by
    ext i
    rw [Finset.mem_sdiff, mem_unacked, mem_unacked]
    simp [Notes.ack]
    tauto
  by_cases hne : S.unacked b = ∅
  · have hnil : ids = [] := by
      cases ids with
      | nil => rfl
      | cons j js =>
        have := (hids j (by simp)).2
        rw [hne] at this; simp at this
    subst hnil
    refine ⟨s, by simp [Learn.ack, h.old, hne], ?_⟩
    have : S.ack b ([].map Int.toNat) = S := by
      cases S; simp [Notes.ack]
    rw [this]; exact h
  · have hfind : s.old.find? b
        = some ⟨(S.unacked b).card, (List.range (S.note b).length).map (ρ b)⟩ := by
      rw [h.old, if_neg hne]
    have hl := ackLoop_spec (ρ b) ids
      ⟨(S.unacked b).card, (List.range (S.note b).length).map (ρ b)⟩ (S.unacked b) s.filter hnd hids
      (fun i hi => by simp [(mem_unacked.1 hi).1]) rfl hne
      (fun i hi j hj he => (h.inj b i b j (mem_unacked.1 hi).1 (mem_unacked.1 hj).1 he).2)
      (fun i hi => h.live hi)
    simp only [Learn.ack, hfind, hl, Option.bind_eq_bind, Option.bind_some, Option.pure_def]
    refine ⟨_, rfl, ?_⟩
    refine h.acked b hb (fun i => S.acked b i || decide (i ∈ ids.map Int.toNat)) _ _
      (fun i hi => by simp [hi]) ?_ ?_ List.filter_sublist ?_
    · intro b' hb'
      split
      · rw [UMap.find_erase, if_neg hb']
      · rw [UMap.find_modify, if_neg hb']
    · have := hun
      simp only [Notes.ack] at this
      rw [this]
      by_cases he : S.unacked b \ (ids.map Int.toNat).toFinset = ∅
      · simp only [he, if_true]
        rw [UMap.find_erase, if_pos rfl]
      · simp only [he, if_false]
        rw [UMap.find_modify, if_pos rfl, hfind]
        rfl
    · intro r x hm
      simp only [without, List.mem_filter, hm, true_and, decide_eq_true_eq, List.mem_map]
      refine not_congr ⟨?_, ?_⟩
      · rintro ⟨i, hi, rfl⟩
        exact ⟨i.toNat, (hids i hi).2, by
          simp only [Bool.or_eq_true, decide_eq_true_eq]
          exact Or.inr ⟨i, hi, rfl⟩, rfl⟩
      · rintro ⟨i, hi, hor, rfl⟩
        simp only [(mem_unacked.1 hi).2, Bool.false_or, decide_eq_true_eq] at hor
        obtain ⟨j, hj, rfl⟩ := hor
        exact ⟨j, hj, rfl⟩

theorem Rep.ackBuffer {s : LL T} {S : Notes T} {ρ} (h : Rep s S ρ) (b : Nat)
    (hs : Safe S (.ackBuffer b)) :
    ∃ s', ackBuffer s b = some s' ∧ Rep s' (S.ackAll b) ρ := by
  obtain ⟨hb, hor⟩ := hs
  have hun : (S.ackAll b).unacked b = ∅ := by
    ext i
    rw [mem_unacked]
    simp [Notes.ackAll]
  by_cases hne : S.unacked b = ∅
  · refine ⟨s, by simp [Learn.ackBuffer, h.old, hne], ?_⟩
    refine h.acked b hb (fun _ => true) s.filter s.old (fun _ _ => rfl) (fun _ _ => rfl) ?_
      (List.Sublist.refl _) ?_
    · have := hun
      simp only [Notes.ackAll] at this
      rw [this, h.old, hne]
    · intro r x hm
      simp [hm, hne]
  · have hall : ∀ i, S.acked b i = false := hor.resolve_left hne
    have hfind : s.old.find? b
        = some ⟨(S.unacked b).card, (List.range (S.note b).length).map (ρ b)⟩ := by
      rw [h.old, if_neg hne]
    have hmem : ∀ i, i < (S.note b).length → i ∈ S.unacked b :=
      fun i hi => mem_unacked.2 ⟨hi, hall i⟩
    have hnd : ((List.range (S.note b).length).map (ρ b)).Nodup := by
      rw [List.nodup_map_iff_inj_on List.nodup_range]
      intro i hi j hj he
      exact (h.inj b i b j (List.mem_range.1 hi) (List.mem_range.1 hj) he).2
    have hsub : ∀ r ∈ (List.range (S.note b).length).map (ρ b), r ∈ s.filter.map Prod.fst := by
      intro r hr
      obtain ⟨i, hi, rfl⟩ := List.mem_map.1 hr
      exact h.live (hmem i (List.mem_range.1 hi))
    have hcard : (S.unacked b).card = ((List.range (S.note b).length).map (ρ b)).length := by
      simp only [List.length_map, List.length_range]
      rw [Notes.unacked, Finset.filter_true_of_mem (fun i _ => hall i), Finset.card_range]
    have hrest : ∀ filter', filter'.Sublist s.filter →
        (∀ r x, (r, x) ∈ s.filter →
          ((r, x) ∈ filter' ↔ r ∉ (List.range (S.note b).length).map (ρ b))) →
        Rep { s with filter := filter', old := s.old.erase b } (S.ackAll b) ρ := by
      intro filter' h1 h2
      refine h.acked b hb (fun _ => true) filter' _ (fun _ _ => rfl) ?_ ?_ h1 ?_
      · intro b' hb'
        rw [UMap.find_erase, if_neg hb']
      · have := hun
        simp only [Notes.ackAll] at this
        rw [this, UMap.find_erase, if_pos rfl, if_pos rfl]
      · intro r x hm
        rw [h2 r x hm]
        refine not_congr ⟨?_, ?_⟩
        · intro hr
          obtain ⟨i, hi, rfl⟩ := List.mem_map.1 hr
          exact ⟨i, hmem i (List.mem_range.1 hi), rfl, rfl⟩
        · rintro ⟨i, hi, _, rfl⟩
          exact List.mem_map.2 ⟨i, List.mem_range.2 (mem_unacked.1 hi).1, rfl⟩
    simp only [Learn.ackBuffer, hfind]
    by_cases hfast : (S.unacked b).card = s.filter.length
    · simp only [hfast, if_true, Option.bind_eq_bind, Option.bind_some, Option.pure_def]
      refine ⟨_, rfl, hrest [] (List.nil_sublist _) ?_⟩
      intro r x hm
      have hperm : ((List.range (S.note b).length).map (ρ b)).Perm (s.filter.map Prod.fst) :=
        (hnd.subperm hsub).perm_of_length_le (by rw [← hcard, hfast]; simp)
      have : r ∈ s.filter.map Prod.fst := List.mem_map.2 ⟨(r, x), hm, rfl⟩
      simp only [List.not_mem_nil, false_iff, not_not]
      exact hperm.mem_iff.2 this
    · rw [if_neg hfast, eraseAll_spec _ _ hnd hsub]
      refine ⟨_, rfl, hrest _ List.filter_sublist ?_⟩
      intro r x hm
      simp [without, hm]

/-- Every operation that the implementation can bear succeeds and does what the notifications
require. -/
theorem Rep.exec {s : LL T} {S : Notes T} {ρ} (h : Rep s S ρ) (op : Op T) (hs : Safe S op) :
    ∃ r s' S' ρ', exec s op = some (r, s') ∧ Rep s' S' ρ' ∧ Step S op r S' := by
  cases op with
  | learn x =>
    obtain ⟨S', ρ', h1, h2⟩ := h.learn x
    exact ⟨_, _, S', ρ', rfl, h1, h2⟩
  | wake =>
    simp only [Learn.exec, Learn.wake]
    by_cases hc : s.waiting ≠ 0 ∧ s.tmp.length = 0
    · rw [if_pos hc]
      have hcl := h.tmp_nil.1 hc.2
      have hbz := h.noNewBusy hcl
      have := h.swap hcl (s.waiting - 1) S.busy (by rw [hbz]; simp)
      refine ⟨_, _, S.close, ρ, rfl, ?_, Or.inr ⟨rfl, hcl, rfl⟩⟩
      have e : { swapBuffers s with waiting := s.waiting - 1, busy := S.busy }
          = swapBuffers { s with waiting := s.waiting - 1 } := by
        simp [swapBuffers, ← h.busy]
      rw [e] at this
      exact this
    · rw [if_neg hc]
      exact ⟨_, _, S, ρ, rfl, h, Or.inl ⟨rfl, rfl⟩⟩
  | transmit e =>
    simp only [Learn.exec, Learn.transmit]
    by_cases hb : s.busy = true
    · rw [if_pos hb]
      exact ⟨_, _, S, ρ, rfl, h, Or.inl ⟨rfl, rfl, Or.inl (h.busy ▸ hb)⟩⟩
    rw [if_neg hb]
    have hbf : S.busy = false := by rw [← h.busy]; simpa using hb
    by_cases hc : S.closed = none
    · have ht := h.tmp_nil.2 hc
      by_cases hw : e = false ∨ s.numSamples = 0
      · rw [if_pos ⟨ht, hw⟩]
        refine ⟨_, _, S, ρ, rfl, h, Or.inl ⟨rfl, rfl, Or.inr ⟨hc, hw.imp_right fun hz => ?_⟩⟩⟩
        rw [← h.buf]
        exact List.length_eq_zero_iff.1 (h.num ▸ hz)
      · rw [if_neg (fun hh => hw hh.2), if_pos ht]
        have hne : s.buffer ≠ [] := by
          intro he
          apply hw; right
          rw [h.num, he]; rfl
        have := h.swap hc s.waiting true (fun _ => hne)
        refine ⟨_, _, { S.close with busy := true }, ρ, rfl, this, Or.inr ⟨S.cur, hbf, ?_, ?_,
          Or.inr ⟨hc, by simpa using fun he => hw (Or.inl he), rfl, rfl⟩⟩⟩
        · simp [swapBuffers, h.cur, h.num, h.buf]
        · rw [← h.buf]; exact hne
    · have ht : ¬ s.tmp.length = 0 := fun hh => hc (h.tmp_nil.1 hh)
      rw [if_neg (fun hh => ht hh.1), if_neg ht]
      obtain ⟨b, hcb⟩ := Option.ne_none_iff_exists'.1 hc
      obtain ⟨h1, h2, h3⟩ := h.closed b hcb
      refine ⟨_, _, { S with busy := true }, ρ, rfl, ?_, Or.inr ⟨b, hbf, ?_, h2,
        Or.inl ⟨hcb, rfl⟩⟩⟩
      · exact h.move rfl rfl rfl rfl rfl h.cur h.buf h.num (le_refl _) h.tmp h.closed rfl
          (fun _ => hc) h.attended
      · have : s.tmp = S.note b := by rw [h.tmp, hcb]; rfl
        rw [this, h3, h.cur, ← h1]
        simp
  | transmitEnd =>
    simp only [Learn.exec, Learn.transmitEnd]
    by_cases hb : s.busy = true
    · rw [if_pos hb]
      refine ⟨_, _, { S with busy := false, closed := none }, ρ, rfl, ?_,
        Or.inr ⟨rfl, h.busy ▸ hb, rfl⟩⟩
      exact h.move rfl rfl rfl rfl rfl h.cur h.buf h.num (le_refl _) rfl (by simp) rfl (by simp)
        h.attended
    · rw [if_neg hb]
      exact ⟨_, _, S, ρ, rfl, h, Or.inl ⟨rfl, by rw [← h.busy]; simpa using hb, rfl⟩⟩
  | ack b ids =>
    obtain ⟨s', h1, h2⟩ := h.ack b ids hs
    exact ⟨.ok, s', _, ρ, by simp [Learn.exec, h1], h2, rfl, rfl⟩
  | ackBuffer b =>
    obtain ⟨s', h1, h2⟩ := h.ackBuffer b hs
    exact ⟨.ok, s', _, ρ, by simp [Learn.exec, h1], h2, rfl, rfl⟩
  | setMax n =>
    simp only [Learn.exec, Learn.setMax]
    by_cases hc : s.numSamples > 0 ∧ s.numSamples ≥ n
    · rw [if_pos hc]
      obtain ⟨S', h1, h2⟩ := Rep.processFull' (s := { s with maxSamples := n })
        (h.setMaxField n (s.waiting + 1) (fun _ _ => by omega))
      exact ⟨_, _, S', ρ, rfl, h1, rfl, h2⟩
    · rw [if_neg hc]
      exact ⟨_, _, S, ρ, rfl, h.setMaxField n s.waiting (fun h1 h2 => absurd ⟨h1, h2⟩ hc), rfl,
        Or.inl rfl⟩
  | reset =>
    have hb : s.busy = false := by rw [h.busy]; exact hs
    simp only [Learn.exec, Learn.reset, hb, Bool.false_eq_true, if_false, Option.map_some]
    refine ⟨_, _, {}, fun _ _ => 0, rfl, ?_, rfl, rfl⟩
    refine ⟨rfl, rfl, rfl, fun _ _ => rfl, fun _ _ _ => rfl, rfl, by simp, rfl, by simp, ?_, ?_, ?_,
      ?_, by simp, ?_, by simp⟩
    · intro b; simp [Notes.unacked]
    · intro r x; simp [Notes.At]
    · intro b i b' i' hi; simp at hi
    · intro b i hi; simp at hi
    · intro x b i b' i' h1; simp [Notes.At] at h1

end Bm.Learn
