import Verif.Spec.Pcap
import Mathlib.Data.List.Forall2

/-!
# Lemmas on replaying capture files
-/

namespace Bm.Pcap

open Bm.Pcap.Spec

/-! ### Times -/

theorem tvLt_iff {a b : TV} (ha : Wf a) (hb : Wf b) : tvLt a b = true ↔ us a < us b := by
  obtain ⟨a1, a2⟩ := ha
  obtain ⟨b1, b2⟩ := hb
  unfold tvLt us
  by_cases h : a.sec = b.sec
  · rw [if_pos h, decide_eq_true_eq]; omega
  · rw [if_neg h, decide_eq_true_eq]; omega

theorem tvLe_iff {a b : TV} (ha : Wf a) (hb : Wf b) : tvLe a b = true ↔ us a ≤ us b := by
  obtain ⟨a1, a2⟩ := ha
  obtain ⟨b1, b2⟩ := hb
  unfold tvLe us
  by_cases h : a.sec = b.sec
  · rw [if_pos h, decide_eq_true_eq]; omega
  · rw [if_neg h, decide_eq_true_eq]; omega

theorem tvSub_spec {a b : TV} (ha : Wf a) (hb : Wf b) : Wf (tvSub a b) ∧ us (tvSub a b) = us a - us b := by
  obtain ⟨a1, a2⟩ := ha
  obtain ⟨b1, b2⟩ := hb
  unfold tvSub us Wf
  by_cases h : a.usec - b.usec < 0
  · rw [if_pos h]; simp only; omega
  · rw [if_neg h]; simp only; omega

/-! ### Merging -/

/-- What is left of a file: the current record and the rest. -/
def queue (f : File) : List (Option Rec) :=
  match f.st with
  | .reading r => some r :: f.rest
  | _ => []

/-- Record `r` of file `i` is the earliest one, and no file before has one of the same time. -/
def Earliest (qs : List (List (Option Rec))) (i : Nat) (r : Rec) : Prop :=
  ∀ j r' q, qs[j]? = some (some r' :: q) → us r.ts ≤ us r'.ts ∧ (j < i → us r.ts < us r'.ts)

/-- The next record, if there is one, is complete. -/
def HeadOk (q : List (Option Rec)) : Prop := ∀ x t, q = x :: t → Complete x

/-- Merging files. -/
inductive Merge : List (List (Option Rec)) → List (Nat × Rec) → End → Prop
  | done {qs} : (∀ q ∈ qs, q = []) → Merge qs [] .done
  | step {qs i r q src e} : qs[i]? = some (some r :: q) → Earliest qs i r → HeadOk q →
      Merge (qs.set i q) src e → Merge qs ((i, r) :: src) e
  | stop {qs i r q} : qs[i]? = some (some r :: q) → Earliest qs i r → ¬ HeadOk q →
      Merge qs [(i, r)] .exited

theorem Merge.ending {qs src e} (h : Merge qs src e) : e = .done ∨ e = .exited := by
  induction h with
  | done => exact .inl rfl
  | step _ _ _ _ ih => exact ih
  | stop => exact .inr rfl

theorem ofFile_cons_eq {i : Nat} {r : Rec} {src : List (Nat × Rec)} :
    ofFile i ((i, r) :: src) = some r :: ofFile i src := by simp [ofFile]

theorem ofFile_cons_ne {i j : Nat} {r : Rec} {src : List (Nat × Rec)} (h : j ≠ i) :
    ofFile i ((j, r) :: src) = ofFile i src := by simp [ofFile, h]

theorem Merge.files {qs src e} (h : Merge qs src e) : ∀ {i q}, qs[i]? = some q →
    ∃ t, q = ofFile i src ++ t ∧ (e = .done → t = []) := by
  induction h with
  | @done qs h =>
    intro i q hq
    exact ⟨[], by rw [h q (List.mem_of_getElem? hq)]; rfl, fun _ => rfl⟩
  | @step qs j r q' src e h1 _ _ _ ih =>
    intro i q hq
    by_cases c : j = i
    · subst c
      rw [h1] at hq
      cases hq
      obtain ⟨t, e1, e2⟩ := ih (i := j) (q := q') (by
        rw [List.getElem?_set_self (List.getElem?_eq_some_iff.1 h1).1])
      exact ⟨t, by rw [ofFile_cons_eq, List.cons_append, ← e1], e2⟩
    · obtain ⟨t, e1, e2⟩ := ih (i := i) (q := q) (by rw [List.getElem?_set_ne c]; exact hq)
      exact ⟨t, by rw [ofFile_cons_ne c]; exact e1, e2⟩
  | @stop qs j r q' h1 _ _ =>
    intro i q hq
    refine ⟨q.drop (ofFile i [(j, r)]).length, ?_, fun h => by cases h⟩
    by_cases c : j = i
    · subst c
      rw [h1] at hq
      cases hq
      simp [ofFile]
    · simp [ofFile, c]

theorem Merge.index {qs src e} (h : Merge qs src e) : ∀ x ∈ src, x.1 < qs.length := by
  induction h with
  | done => intro x hx; cases hx
  | step h1 _ _ _ ih =>
    intro x hx
    rcases List.mem_cons.1 hx with rfl | hx
    · exact (List.getElem?_eq_some_iff.1 h1).1
    · simpa using ih x hx
  | stop h1 =>
    intro x hx
    rw [List.mem_singleton] at hx
    subst hx
    exact (List.getElem?_eq_some_iff.1 h1).1

theorem mem_set {α : Type} {l : List α} {i : Nat} {a x : α} (h : x ∈ l.set i a) : x ∈ l ∨ x = a :=
  List.mem_or_eq_of_mem_set h

theorem Merge.complete {qs src e} (h : Merge qs src e) : (∀ q ∈ qs, HeadOk q) →
    (e = .done ↔ ∀ q ∈ qs, ∀ x ∈ q, Complete x) ∧ ∀ x ∈ src, x.2.caplen = x.2.len := by
  induction h with
  | done h =>
    intro _
    refine ⟨⟨fun _ q hq x hx => ?_, fun _ => rfl⟩, fun x hx => by cases hx⟩
    rw [h q hq] at hx
    cases hx
  | @step qs i r q src e h1 _ h3 _ ih =>
    intro hh
    have hm := List.mem_of_getElem? h1
    obtain ⟨i1, i2⟩ := ih (fun q' hq' => by
      rcases mem_set hq' with h | rfl
      · exact hh q' h
      · exact h3)
    have hr : r.caplen = r.len := by
      obtain ⟨r', h, h'⟩ := hh _ hm _ _ rfl
      cases h
      exact h'
    refine ⟨i1.trans ⟨fun h q' hq' x hx => ?_, fun h q' hq' x hx => ?_⟩, fun x hx => ?_⟩
    · obtain ⟨j, hj⟩ := List.getElem?_of_mem hq'
      by_cases c : i = j
      · subst c
        rw [h1] at hj
        cases hj
        rcases List.mem_cons.1 hx with rfl | hx
        · exact ⟨r, rfl, hr⟩
        · refine h q (List.mem_of_getElem? (i := i) ?_) x hx
          rw [List.getElem?_set_self (List.getElem?_eq_some_iff.1 h1).1]
      · refine h q' (List.mem_of_getElem? (i := j) ?_) x hx
        rw [List.getElem?_set_ne c]
        exact hj
    · rcases mem_set hq' with h' | rfl
      · exact h q' h' x hx
      · exact h _ hm x (List.mem_cons_of_mem _ hx)
    · rcases List.mem_cons.1 hx with rfl | hx
      · exact hr
      · exact i2 x hx
  | @stop qs i r q h1 _ h3 =>
    intro hh
    have hm := List.mem_of_getElem? h1
    refine ⟨⟨fun h => (by cases h), fun h => absurd (fun x t e => ?_) h3⟩, fun x hx => ?_⟩
    · exact h _ hm x (by rw [e]; simp)
    · rw [List.mem_singleton] at hx
      subst hx
      obtain ⟨r', h, h'⟩ := hh _ hm _ _ rfl
      cases h
      exact h'

/-- Records sent later come from the files. -/
theorem Merge.mem {qs src e} (h : Merge qs src e) : ∀ {x}, x ∈ src →
    ∃ q, qs[x.1]? = some q ∧ some x.2 ∈ q := by
  intro x hx
  have hi := h.index x hx
  refine ⟨qs[x.1], List.getElem?_eq_getElem hi, ?_⟩
  obtain ⟨t, e1, _⟩ := h.files (i := x.1) (List.getElem?_eq_getElem hi)
  rw [e1, List.mem_append]
  refine .inl ?_
  unfold ofFile
  refine List.mem_map.2 ⟨x, ?_, rfl⟩
  simp [hx]

theorem Merge.sorted {qs src e} (h : Merge qs src e) : (∀ q ∈ qs, Sorted q) → (∀ q ∈ qs, HeadOk q) →
    src.Pairwise Before := by
  induction h with
  | done => intro _ _; exact .nil
  | stop => intro _ _; exact List.pairwise_singleton _ _
  | @step qs i r q src e h1 h2 h3 hm ih =>
    intro hs hh
    have hmem := List.mem_of_getElem? h1
    have hsq : Sorted q := (List.pairwise_cons.1 (hs _ hmem)).2
    refine List.pairwise_cons.2 ⟨fun y hy => ?_, ih (fun q' hq' => ?_) (fun q' hq' => ?_)⟩
    · obtain ⟨q', hq', hy'⟩ := hm.mem hy
      by_cases c : i = y.1
      · rw [← c, List.getElem?_set_self (List.getElem?_eq_some_iff.1 h1).1] at hq'
        cases hq'
        have := (List.pairwise_cons.1 (hs _ hmem)).1 _ hy' r y.2 rfl rfl
        rcases Int.lt_or_eq_of_le this with h | h
        · exact .inl h
        · exact .inr ⟨h, by simp only; omega⟩
      · rw [List.getElem?_set_ne c] at hq'
        cases hq0 : q' with
        | nil => rw [hq0] at hy'; cases hy'
        | cons z q'' =>
          rw [hq0] at hq' hy'
          obtain ⟨r', hz, _⟩ := hh _ (List.mem_of_getElem? hq') z q'' rfl
          subst hz
          have h4 := h2 y.1 r' q'' hq'
          have h5 : us r'.ts ≤ us y.2.ts := by
            rcases List.mem_cons.1 hy' with h | h
            · cases h; omega
            · exact (List.pairwise_cons.1 (hs _ (List.mem_of_getElem? hq'))).1 _ h r' y.2 rfl rfl
          unfold Before
          simp only
          by_cases c2 : y.1 < i
          · have := h4.2 c2
            omega
          · have := h4.1
            omega
    · rcases mem_set hq' with h | rfl
      · exact hs q' h
      · exact hsq
    · rcases mem_set hq' with h | rfl
      · exact hh q' h
      · exact h3

/-! ### The reader -/

/-- A file during the loop: at its end, or with a current record that is complete. -/
def FileOk (f : File) : Prop :=
  (f.st = .atEnd ∨ ∃ r, f.st = .reading r ∧ r.caplen = r.len ∧ Wf r.ts) ∧
    ∀ r, some r ∈ f.rest → Wf r.ts

theorem queue_reading {f : File} {r : Rec} (h : f.st = .reading r) : queue f = some r :: f.rest := by
  unfold queue; rw [h]

theorem queue_atEnd {f : File} (h : f.st = .atEnd) : queue f = [] := by unfold queue; rw [h]

/-- The loop that looks for the earliest record. -/
theorem pick_spec : ∀ (fs : List File) (i : Nat) (acc : Option (Nat × TV)),
    (∀ f ∈ fs, FileOk f) → (∀ x, acc = some x → Wf x.2) →
    ∃ res, pick fs i acc = some res ∧
      (res = none → acc = none ∧ ∀ f ∈ fs, queue f = []) ∧
      ∀ j t, res = some (j, t) →
        (acc = some (j, t) ∧ ∀ r q, (some r :: q) ∈ fs.map queue → us t ≤ us r.ts) ∨
        (∃ m r q, j = i + m ∧ (fs.map queue)[m]? = some (some r :: q) ∧ r.ts = t ∧
          Earliest (fs.map queue) m r ∧ ∀ x, acc = some x → us t < us x.2)
  | [], i, acc, _, _ => ⟨acc, rfl, fun h => ⟨h, fun f hf => by cases hf⟩, fun j t h => .inl ⟨h, fun r q hm => by
      cases hm⟩⟩
  | f :: fs, i, acc, hf, ha => by
    have hf0 := hf f (by simp)
    have hfs : ∀ g ∈ fs, FileOk g := fun g hg => hf g (by simp [hg])
    rcases hf0.1 with he | ⟨r0, he, _, hw⟩
    · obtain ⟨res, e1, e2, e3⟩ := pick_spec fs (i + 1) acc hfs ha
      refine ⟨res, ?_, fun h => ⟨(e2 h).1, fun g hg => ?_⟩, fun j t h => ?_⟩
      · simp only [pick, File.atEOF, he, decide_true, if_true]
        exact e1
      · rcases List.mem_cons.1 hg with rfl | hg
        · exact queue_atEnd he
        · exact (e2 h).2 g hg
      · rcases e3 j t h with ⟨h1, h2⟩ | ⟨m, r, q, h1, h2, h3, h4, h5⟩
        · refine .inl ⟨h1, fun r q hm => ?_⟩
          rw [List.map_cons, queue_atEnd he] at hm
          rcases List.mem_cons.1 hm with h | h
          · cases h
          · exact h2 r q h
        · refine .inr ⟨m + 1, r, q, by omega, by simpa using h2, h3, fun j' r' q' hj => ?_, h5⟩
          rw [List.map_cons, queue_atEnd he] at hj
          cases j' with
          | zero => cases hj
          | succ j' =>
            have := h4 j' r' q' (by simpa using hj)
            exact ⟨this.1, fun h => this.2 (by omega)⟩
    · have hq := queue_reading he
      have hb : ∃ y, better acc i r0.ts = some y ∧ Wf y.2 ∧
          ((y = (i, r0.ts) ∧ ∀ x, acc = some x → us r0.ts < us x.2) ∨
            (acc = some y ∧ us y.2 ≤ us r0.ts)) := by
        cases acc with
        | none => exact ⟨(i, r0.ts), rfl, hw, .inl ⟨rfl, fun x h => by cases h⟩⟩
        | some x =>
          obtain ⟨j, u⟩ := x
          have hu : Wf u := ha _ rfl
          by_cases c : us r0.ts < us u
          · refine ⟨(i, r0.ts), ?_, hw, .inl ⟨rfl, fun x h => by cases h; exact c⟩⟩
            simp only [better]
            rw [if_pos ((tvLt_iff hw hu).2 c)]
          · refine ⟨(j, u), ?_, hu, .inr ⟨rfl, by simp only; omega⟩⟩
            simp only [better]
            rw [if_neg (fun h => c ((tvLt_iff hw hu).1 h))]
      obtain ⟨y, b1, b2, b3⟩ := hb
      obtain ⟨res, e1, e2, e3⟩ := pick_spec fs (i + 1) (some y) hfs (fun x h => by cases h; exact b2)
      refine ⟨res, ?_, fun h => (by have := (e2 h).1; cases this), fun j t h => ?_⟩
      · simp only [pick, File.atEOF, he, File.current, Option.bind_eq_bind, Option.bind_some, b1]
        rw [if_neg (by simp)]
        exact e1
      · rcases e3 j t h with ⟨h1, h2⟩ | ⟨m, r, q, h1, h2, h3, h4, h5⟩
        · cases h1
          rcases b3 with ⟨h6, h7⟩ | ⟨h6, h7⟩
          · cases h6
            refine .inr ⟨0, r0, f.rest, rfl, by simp [hq], rfl, fun j' r' q' hj => ?_, h7⟩
            cases j' with
            | zero =>
              simp only [List.map_cons, List.getElem?_cons_zero, hq, Option.some.injEq, List.cons.injEq] at hj
              rw [hj.1]
              exact ⟨Int.le_refl _, fun h => by omega⟩
            | succ j' =>
              simp only [List.map_cons, List.getElem?_cons_succ] at hj
              exact ⟨h2 r' q' (List.mem_of_getElem? hj), fun h => by omega⟩
          · refine .inl ⟨h6, fun r q hm => ?_⟩
            rw [List.map_cons, hq] at hm
            rcases List.mem_cons.1 hm with h | h
            · cases h; exact h7
            · exact h2 r q h
        · have h50 : us t < us y.2 := h5 y rfl
          have hy : us y.2 ≤ us r0.ts := by
            rcases b3 with ⟨h6, _⟩ | ⟨_, h7⟩
            · rw [h6]; exact Int.le_refl _
            · exact h7
          refine .inr ⟨m + 1, r, q, by omega, by simpa using h2, h3, fun j' r' q' hj => ?_, fun x hx => ?_⟩
          · cases j' with
            | zero =>
              simp only [List.map_cons, List.getElem?_cons_zero, hq, Option.some.injEq, List.cons.injEq] at hj
              rw [← hj.1, h3]
              exact ⟨by omega, fun _ => by omega⟩
            | succ j' =>
              have := h4 j' r' q' (by simpa using hj)
              exact ⟨this.1, fun h => this.2 (by omega)⟩
          · rcases b3 with ⟨h6, h7⟩ | ⟨h6, h7⟩
            · have := h7 x hx
              rw [h6] at h50
              simp only at h50
              omega
            · rw [hx] at h6
              cases h6
              exact h50

/-- Reading on in a file. -/
theorem moveNext_spec {f : File} {r : Rec} (hf : FileOk f) (hr : f.st = .reading r) :
    (HeadOk f.rest → ∃ f' ok, f.moveNext = some (f', ok) ∧ FileOk f' ∧ queue f' = f.rest ∧
      f'.port = f.port ∧ f'.atEOF = !ok) ∧
    (¬ HeadOk f.rest → f.moveNext = none) := by
  have hw := hf.2
  cases hrest : f.rest with
  | nil =>
    refine ⟨fun _ => ⟨{ f with st := .atEnd }, false, ?_, ⟨.inl rfl, hw⟩, rfl, rfl, rfl⟩, fun h => ?_⟩
    · unfold File.moveNext; rw [hr, hrest]
    · exact absurd (fun x t e => by cases e) h
  | cons x t =>
    rw [hrest] at hw
    cases x with
    | none =>
      refine ⟨fun h => ?_, fun _ => ?_⟩
      · obtain ⟨r', h, _⟩ := h none t rfl
        cases h
      · unfold File.moveNext; rw [hr, hrest]
    | some r' =>
      refine ⟨fun h => ?_, fun h => ?_⟩
      · obtain ⟨r'', h, hc⟩ := h (some r') t rfl
        cases h
        refine ⟨{ f with rest := t, st := .reading r' }, true, ?_,
          ⟨.inr ⟨r', rfl, hc, hw r' (by simp)⟩, fun y hy => hw y (by simp [hy])⟩, rfl, rfl, rfl⟩
        unfold File.moveNext
        rw [hr, hrest]
        simp only
        rw [if_neg (by simp [hc])]
      · unfold File.moveNext
        rw [hr, hrest]
        simp only
        rw [if_pos]
        intro hc
        exact h (fun x t' e => by cases e; exact ⟨r', rfl, hc⟩)

/-- The reader during the loop. -/
structure ROk (rd : Reader) : Prop where
  files : ∀ f ∈ rd.files, FileOk f
  count : rd.nonEmpty = rd.files.countP (fun f => !f.atEOF)
  start : Wf rd.startTime
  first : Wf rd.firstPacketTime

theorem queue_headOk {f : File} (h : FileOk f) : HeadOk (queue f) := by
  intro x t e
  rcases h.1 with he | ⟨r, he, hc, _⟩
  · rw [queue_atEnd he] at e; cases e
  · rw [queue_reading he] at e; cases e; exact ⟨r, rfl, hc⟩

/-- When a packet is due. -/
def dueOf (rd : Reader) : Option (Rec → Int) :=
  if rd.respectTiming then some fun r => us rd.startTime + (us r.ts - us rd.firstPacketTime) else none

theorem countP_set {l : List File} {i : Nat} {f f' : File} (h : l[i]? = some f) (hf : f.atEOF = false)
    {ok : Bool} (hf' : f'.atEOF = !ok) :
    (l.set i f').countP (fun f => !f.atEOF) =
      if ok then l.countP (fun f => !f.atEOF) else l.countP (fun f => !f.atEOF) - 1 := by
  induction l generalizing i with
  | nil => cases h
  | cons g l ih =>
    cases i with
    | zero =>
      cases h
      rw [List.set_cons_zero, List.countP_cons, List.countP_cons, hf', hf]
      cases ok <;> simp
    | succ i =>
      rw [List.set_cons_succ, List.countP_cons, List.countP_cons, ih h]
      have : 0 < l.countP (fun f => !f.atEOF) :=
        List.countP_pos_iff.2 ⟨f, List.mem_of_getElem? h, by rw [hf]; rfl⟩
      cases ok
      · simp only [Bool.false_eq_true, if_false]; omega
      · simp

/-- The time at which a packet is sent. -/
theorem timed {env : Env} {k : Nat} {rd : Reader} (hr : ROk rd) (hn : Wf (env.now k)) {r : Rec} (hw : Wf r.ts) :
    match dueOf rd with
    | none => (if rd.respectTiming then some (sendTime env k (delay rd (env.now k) r.ts)) else none) = none
    | some f => ∃ t, (if rd.respectTiming then some (sendTime env k (delay rd (env.now k) r.ts)) else none) =
        some t ∧ Timed env k (f r) t := by
  unfold dueOf
  cases ht : rd.respectTiming with
  | false => simp
  | true =>
    simp only [if_true]
    refine ⟨_, rfl, ?_⟩
    obtain ⟨a1, a2⟩ := tvSub_spec hw hr.first
    obtain ⟨b1, b2⟩ := tvSub_spec hn hr.start
    obtain ⟨c1, c2⟩ := tvSub_spec a1 b1
    have hz : Wf ⟨0, 0⟩ := ⟨Int.le_refl _, by decide⟩
    have hz0 : us ⟨0, 0⟩ = 0 := rfl
    unfold sendTime delay
    rw [ht]
    simp only [if_true]
    by_cases c : tvLe (tvSub (tvSub r.ts rd.firstPacketTime) (tvSub (env.now k) rd.startTime)) ⟨0, 0⟩ = true
    · rw [if_pos c]
      have := (tvLe_iff c1 hz).1 c
      exact .inl ⟨by omega, rfl⟩
    · rw [if_neg c]
      have : ¬ us (tvSub (tvSub r.ts rd.firstPacketTime) (tvSub (env.now k) rd.startTime)) ≤ us ⟨0, 0⟩ :=
        fun h => c ((tvLe_iff c1 hz).2 h)
      exact .inr ⟨by omega, _, c1, by omega, rfl⟩

/-- Records left. -/
def left (fs : List File) : Nat := ((fs.map queue).map List.length).sum

theorem left_set {fs : List File} {i : Nat} {f f' : File} (h : fs[i]? = some f)
    (hl : (queue f').length + 1 = (queue f).length) : left (fs.set i f') + 1 = left fs := by
  unfold left
  induction fs generalizing i with
  | nil => cases h
  | cons g fs ih =>
    cases i with
    | zero =>
      cases h
      simp only [List.set_cons_zero, List.map_cons, List.sum_cons]
      omega
    | succ i =>
      have := ih h
      simp only [List.set_cons_succ, List.map_cons, List.sum_cons]
      omega

/-- The loop merges the files. -/
theorem scan_merge {env : Env} (hn : ∀ k, Wf (env.now k)) : ∀ (fuel k : Nat) (rd : Reader), ROk rd →
    left rd.files < fuel →
    ∃ src e out, scan env fuel k rd = (out, e) ∧ Merge (rd.files.map queue) src e ∧
      Agree env (rd.files.map (·.port)) (dueOf rd) k src out
  | 0, _, _, _, h => by omega
  | fuel + 1, k, rd, hr, hl => by
    by_cases h0 : rd.nonEmpty = 0
    · refine ⟨[], .done, [], ?_, .done fun q hq => ?_, trivial⟩
      · simp only [scan]
        rw [if_pos h0]
      · obtain ⟨f, hf, rfl⟩ := List.mem_map.1 hq
        rw [hr.count, List.countP_eq_zero] at h0
        have := h0 f hf
        unfold File.atEOF at this
        rcases (hr.files f hf).1 with he | ⟨r, he, _⟩
        · exact queue_atEnd he
        · rw [he] at this; simp at this
    · obtain ⟨res, e1, e2, e3⟩ := pick_spec rd.files 0 none hr.files (fun x h => by cases h)
      cases res with
      | none =>
        exfalso
        apply h0
        rw [hr.count, List.countP_eq_zero]
        intro f hf
        have := (e2 rfl).2 f hf
        rcases (hr.files f hf).1 with he | ⟨r, he, _⟩
        · unfold File.atEOF; rw [he]; decide
        · rw [queue_reading he] at this; cases this
      | some x =>
        obtain ⟨j, t⟩ := x
        rcases e3 j t rfl with ⟨h1, _⟩ | ⟨m, r, q, h1, h2, h3, h4, _⟩
        · cases h1
        · rw [Nat.zero_add] at h1
          subst h1
          rw [List.getElem?_map] at h2
          obtain ⟨f, hf, hq⟩ := Option.map_eq_some_iff.1 h2
          have hfm := List.mem_of_getElem? hf
          have hfo := hr.files f hfm
          have hst : f.st = .reading r ∧ f.rest = q := by
            rcases hfo.1 with he | ⟨r', he, _⟩
            · rw [queue_atEnd he] at hq; cases hq
            · rw [queue_reading he] at hq; cases hq; exact ⟨he, rfl⟩
          have hwr : Wf r.ts := by
            rcases hfo.1 with he | ⟨r', he, _, hw⟩
            · rw [hst.1] at he; cases he
            · rw [hst.1] at he; cases he; exact hw
          have hqj : (rd.files.map queue)[j]? = some (some r :: f.rest) := by
            rw [List.getElem?_map, hf, Option.map_some, queue_reading hst.1]
          have hport : (rd.files.map (·.port))[j]? = some f.port := by rw [List.getElem?_map, hf]; rfl
          have htm := timed (env := env) (k := k) hr (hn k) hwr
          rw [← h3] at e1
          clear h3
          have hcur : f.current = some r := by unfold File.current; rw [hst.1]
          obtain ⟨m1, m2⟩ := moveNext_spec hfo hst.1
          by_cases hh : HeadOk f.rest
          · obtain ⟨f', ok, n1, n2, n3, n4, n5⟩ := m1 hh
            have heof : f.atEOF = false := by unfold File.atEOF; rw [hst.1]; simp
            have hrd' : ROk { rd with files := rd.files.set j f'
                                      nonEmpty := if ok then rd.nonEmpty else rd.nonEmpty - 1 } := by
              refine ⟨fun g hg => ?_, ?_, hr.start, hr.first⟩
              · rcases mem_set hg with h | rfl
                · exact hr.files g h
                · exact n2
              · simp only
                rw [countP_set hf heof n5, ← hr.count]
            obtain ⟨src, e, out, s1, s2, s3⟩ := scan_merge hn fuel (k + 1) _ hrd' (by
              have := left_set (f' := f') hf (by rw [n3, queue_reading hst.1, List.length_cons])
              simp only
              omega)
            have hmq : (rd.files.set j f').map queue = (rd.files.map queue).set j f.rest := by
              rw [List.map_set, n3]
            have hmp : (rd.files.set j f').map (·.port) = rd.files.map (·.port) := by
              rw [List.map_set, n4]
              apply List.ext_getElem?
              intro a
              by_cases c : j = a
              · subst c
                rw [List.getElem?_set_self (by
                  rw [List.length_map]; exact (List.getElem?_eq_some_iff.1 hf).1), hport]
              · rw [List.getElem?_set_ne c]
            refine ⟨(j, r) :: src, e, ⟨j, f.port, r.data, r.len,
              if rd.respectTiming then some (sendTime env k (delay rd (env.now k) r.ts)) else none⟩ :: out, ?_, .step hqj h4 hh (hmq ▸ s2),
              ⟨?_, ?_, ?_, ?_, ?_, ?_⟩⟩
            rotate_left 1
            · rfl
            · exact hport
            · rfl
            · rfl
            · exact htm
            · rw [← hmp]
              exact s3
            · simp only [scan]
              rw [if_neg h0, e1]
              simp only [fire, hf, hcur, n1, Option.bind_eq_bind, Option.bind_some]
              simp only [pure, s1]
          · refine ⟨[(j, r)], .exited, [⟨j, f.port, r.data, r.len,
              if rd.respectTiming then some (sendTime env k (delay rd (env.now k) r.ts)) else none⟩], ?_, .stop hqj h4 hh, ⟨?_, ?_, ?_, ?_, ?_, trivial⟩⟩
            rotate_left 1
            · rfl
            · exact hport
            · rfl
            · rfl
            · exact htm
            · simp only [scan]
              rw [if_neg h0, e1]
              simp only [fire, hf, hcur, m2 hh, Option.bind_eq_bind, Option.bind_some]
              rfl

end Bm.Pcap
