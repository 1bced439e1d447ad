import Verif.Lemmas.Notify
import Verif.Props.Learning

/-! # Sequences of notifications -/

namespace Bm.Notify
open Elog Bm.Notify.Spec

theorem learnMessage_eq {dev cxt : Nat} {list : Int} {m : Learn.Msg Bytes} (h : m.samples.flatten.length < 2 ^ 32) :
    learnMessage dev cxt list m = learnHdr dev cxt list m.id m.num ++ m.samples.flatten := by
  rw [learnMessage, buf_id h, learnHdr]

theorem ageMessage_eq {dev cxt b : Nat} {t : Int} {hs : List Nat} (h : hs.length < 2 ^ 30) :
    ageMessage dev cxt b t hs = ageHdr dev cxt b t hs.length ++ (hs.map (le 4)).flatten := by
  rw [ageMessage, buf_id (by rw [handles_length]; omega), ageHdr]

theorem portMessage_eq {dev : Nat} {cs : List (Nat × Bool)} (h : cs.length < 2 ^ 29) (hn : cs ≠ []) :
    portMessage dev cs = [portHdr dev cs.length ++ (cs.map oneStatus).flatten] := by
  rw [portMessage, if_neg hn, buf_id (by rw [statuses_length]; omega), portHdr]

/-- The handles in what was received. -/
theorem age_words {r : Rx} (h : r.WF) {dev cxt b : Nat} {t : Int} {hs : List Nat} (hh : ∀ x ∈ hs, x < 2 ^ 32)
    (hl : 4 * hs.length ≤ 4096) : ∀ i x, hs[i]? = some x →
      word (((r.recv (ageHdr dev cxt b t hs.length ++ (hs.map (le 4)).flatten)).data.drop (4 * i)).take 4) = some x := by
  intro i x hx
  rw [Rx.recv_data h (ageHdr_length ..) (by rw [handles_length]; exact hl),
    flatten_slice (k := 4) (l := hs.map (le 4)) (by simp [le_length]) (x := le 4 x) (by rw [List.getElem?_map, hx]; rfl),
    word_le4 (hh x (List.mem_of_getElem? hx))]

/-- One event, any callbacks. -/
theorem listen_event {g : Regs} {r : Rx} (h : r.WF) {dev : Nat} (hd : dev < 2 ^ 64) {e : Event} (hf : e.Fits)
    (hs : e.size ≤ 4096) :
    (sent dev e = [] ∧ Tells dev e []) ∨
    ∃ m r' cs, sent dev e = [m] ∧ listener g r m = some (r', cs) ∧ r'.WF ∧
      if e.wanted g.learn g.age g.port then Tells dev e cs else cs = [] := by
  cases e with
  | learn cxt list b samples =>
    obtain ⟨h1, h2, h3, h4, h5, h6⟩ := hf
    have hi : I32 list := ⟨h2, h3⟩
    right
    have em : learnMessage dev cxt list ⟨b, samples.length, samples⟩ =
        learnHdr dev cxt list b samples.length ++ samples.flatten := learnMessage_eq h6
    refine ⟨_, _, if g.learn then
        [.learn dev cxt list b samples.length (r.recv (learnHdr dev cxt list b samples.length ++ samples.flatten)).data]
        else [], rfl, ?_, Rx.recv_wf h (learnHdr dev cxt list b samples.length ++ samples.flatten), ?_⟩
    · rw [em]
      have m := learnHdr_members hd h1 hi h4 h5 []
      rw [List.append_nil] at m
      simp only [listener, Rx.recv_hdr h (learnHdr_length ..), m.1, learnCall_recv h hd h1 hi h4 h5]
      rfl
    · show if g.learn then _ else _
      cases g.learn
      · rfl
      · refine ⟨_, rfl, ?_⟩
        rw [Rx.recv_data h (learnHdr_length ..) hs]
        exact List.prefix_append _ _
  | age cxt b t hs' =>
    obtain ⟨h1, h2, h3, h4, h5, h6⟩ := hf
    have hi : I32 t := ⟨h3, h4⟩
    right
    have em := ageMessage_eq (dev := dev) (cxt := cxt) (b := b) (t := t) h5
    refine ⟨_, _, if g.age then
        [.age dev cxt t b hs'.length (r.recv (ageHdr dev cxt b t hs'.length ++ (hs'.map (le 4)).flatten)).data]
        else [], rfl, ?_, Rx.recv_wf h (ageHdr dev cxt b t hs'.length ++ (hs'.map (le 4)).flatten), ?_⟩
    · rw [em]
      have m := ageHdr_members hd h1 hi h2 (num := hs'.length) (by omega) []
      rw [List.append_nil] at m
      simp only [listener, Rx.recv_hdr h (ageHdr_length ..), m.1, ageCall_recv h hd h1 hi h2 (show hs'.length < 2 ^ 32 by omega)]
      rfl
    · show if g.age then _ else _
      cases g.age
      · rfl
      · exact ⟨_, rfl, age_words h h6 hs⟩
  | ports cs =>
    obtain ⟨h1, h2⟩ := hf
    by_cases hn : cs = []
    · subst hn
      exact .inl ⟨rfl, rfl⟩
    · right
      refine ⟨_, _, if g.port then cs.map fun c => .port dev c.1 c.2 else [], portMessage_eq h1 hn, ?_,
        Rx.recv_wf h (portHdr dev cs.length ++ (cs.map oneStatus).flatten), ?_⟩
      · have m := portHdr_members hd (num := cs.length) (by omega) []
        rw [List.append_nil] at m
        simp only [listener, Rx.recv_hdr h (portHdr_length ..), m.1, portCalls_recv h hd h2 hs]
        cases g.port <;> rfl
      · show if g.port then _ else _
        cases g.port <;> rfl
  | probe x =>
    right
    refine ⟨_, _, [], rfl, ?_, Rx.recv_wf h (probeMessage dev x), rfl⟩
    obtain ⟨p1, p2⟩ := probe_take dev x
    have hh : (r.recv (probeMessage dev x)).hdr = probeMessage dev x := by
      have := Rx.recv_hdr h p2 []
      rwa [List.append_nil] at this
    simp only [listener, hh, p1]
    rfl

/-- One event at a listener for learning. -/
theorem learn_event {r : Rx} (h : r.WF) {dev : Nat} (hd : dev < 2 ^ 64) {e : Event} (hf : e.Fits) (hs : e.size ≤ 4096) :
    (sent dev e = [] ∧ e.wanted true false false = false) ∨
    ∃ m, sent dev e = [m] ∧ (learnListener r m).1.WF ∧
      if e.wanted true false false then Tells dev e (learnListener r m).2 else (learnListener r m).2 = [] := by
  have sub : ∀ a b : Bytes, a.length = 4 → (a ++ b).take 3 = a.take 3 := fun a b ha => by
    rw [List.take_append_of_le_length (by omega)]
  cases e with
  | learn cxt list b samples =>
    obtain ⟨h1, h2, h3, h4, h5, h6⟩ := hf
    have hi : I32 list := ⟨h2, h3⟩
    right
    have em : learnMessage dev cxt list ⟨b, samples.length, samples⟩ =
        learnHdr dev cxt list b samples.length ++ samples.flatten := learnMessage_eq h6
    refine ⟨_, rfl, ?_, ?_⟩
    all_goals
      rw [em]
      have ht : (learnHdr dev cxt list b samples.length ++ samples.flatten).take 3 = lea.take 3 := by
        rw [learnHdr, List.append_assoc]; exact sub _ _ rfl
      simp only [learnListener, if_pos ht]
    · exact Rx.recv_wf h _
    · rw [learnCall_recv h hd h1 hi h4 h5]
      refine ⟨_, rfl, ?_⟩
      rw [Rx.recv_data h (learnHdr_length ..) hs]
      exact List.prefix_append _ _
  | age cxt b t hs' =>
    right
    obtain ⟨h1, h2, h3, h4, h5, h6⟩ := hf
    have ht : (ageMessage dev cxt b t hs').take 3 ≠ lea.take 3 := by
      rw [ageMessage_eq h5, ageHdr, List.append_assoc, sub _ _ rfl]; decide
    refine ⟨_, rfl, ?_, ?_⟩
    · rw [learnListener, if_neg ht]; exact h
    · rw [learnListener, if_neg ht]; rfl
  | ports cs =>
    by_cases hn : cs = []
    · subst hn
      exact .inl ⟨rfl, rfl⟩
    · right
      have ht : (portHdr dev cs.length ++ (cs.map oneStatus).flatten).take 3 ≠ lea.take 3 := by
        rw [portHdr, List.append_assoc, sub _ _ rfl]; decide
      refine ⟨_, portMessage_eq hf.1 hn, ?_, ?_⟩
      · rw [learnListener, if_neg ht]; exact h
      · rw [learnListener, if_neg ht]; rfl
  | probe x =>
    right
    have ht : (probeMessage dev x).take 3 ≠ lea.take 3 := by
      rw [probeMessage, sub _ _ rfl]; decide
    refine ⟨_, rfl, ?_, ?_⟩
    · rw [learnListener, if_neg ht]; exact h
    · rw [learnListener, if_neg ht]; rfl

/-! ## PI -/

/-- A digest as PI sees it. -/
def Env.digest (env : Env) (dev : Nat) (list : Int) : Option (Nat × Nat) := do
  let name ← env.listName list
  let info ← env.info dev
  let id ← info.digestId name
  return (id, info.digestSize id)

/-- A table as PI sees it. -/
def Env.table (env : Env) (dev : Nat) (t : Int) : Option Nat :=
  if env.tableName t = "" then none
  else do
    let info ← env.info dev
    info.tableId (env.tableName t)

theorem capture_learn (env : Env) {dev cxt b : Nat} {list : Int} {samples : List Bytes} (hd : dev < 2 ^ 64)
    (hf : (Event.learn cxt list b samples).Fits) (hn : samples ≠ [])
    (hw : ∀ id size, env.digest dev list = some (id, size) → ∀ x ∈ samples, x.length = size) :
    capture env false (learnMessage dev cxt list ⟨b, samples.length, samples⟩) =
      some (false, match env.digest dev list with
        | some (id, size) => [.digest dev cxt id b samples.length size samples.flatten]
        | none => []) := by
  obtain ⟨h1, h2, h3, h4, h5, h6⟩ := hf
  have hi : I32 list := ⟨h2, h3⟩
  have hpos : samples.length ≠ 0 := fun c => hn (List.length_eq_zero_iff.1 c)
  have em : learnMessage dev cxt list ⟨b, samples.length, samples⟩ =
      learnHdr dev cxt list b samples.length ++ samples.flatten := learnMessage_eq h6
  rw [em]
  obtain ⟨m1, m2, m3, m4, m5, m6⟩ := learnHdr_members hd h1 hi h4 h5 samples.flatten
  have hl : (learnHdr dev cxt list b samples.length ++ samples.flatten).length = 32 + samples.flatten.length := by
    rw [List.length_append, learnHdr_length]
  have hdr : (learnHdr dev cxt list b samples.length ++ samples.flatten).drop 32 = samples.flatten :=
    List.drop_left' (learnHdr_length ..)
  unfold capture
  rw [if_neg (by omega), m1, if_neg (by decide), if_pos rfl]
  unfold handleLea
  rw [m2, m3, m4, m5, m6, hl, hdr]
  simp only [Bool.false_eq_true, if_false, if_neg hpos]
  cases e1 : env.listName list with
  | none => simp [Env.digest, e1]
  | some name =>
    cases e2 : env.info dev with
    | none => simp [Env.digest, e1, e2]
    | some info =>
      cases e3 : info.digestId name with
      | none => simp [Env.digest, e1, e2, e3]
      | some id =>
        have ed : env.digest dev list = some (id, info.digestSize id) := by simp [Env.digest, e1, e2, e3]
        have hfl := flatten_length (hw _ _ ed)
        have hq : info.digestSize id = (32 + samples.flatten.length - 32) / samples.length := by
          rw [hfl, Nat.add_sub_cancel_left, Nat.mul_div_cancel _ (Nat.pos_of_ne_zero hpos)]
        simp only [e3, ne_eq, ← hq, not_true_eq_false, if_false, ed]
        rfl

theorem capture_age (env : Env) {dev cxt b : Nat} {t : Int} {hs : List Nat} (hd : dev < 2 ^ 64)
    (hf : (Event.age cxt b t hs).Fits) :
    capture env false (ageMessage dev cxt b t hs) =
      some (false, match env.table dev t with
        | some id => hs.map (.idle dev id)
        | none => []) := by
  obtain ⟨h1, h2, h3, h4, h5, h6⟩ := hf
  have hi : I32 t := ⟨h3, h4⟩
  rw [ageMessage_eq h5]
  obtain ⟨m1, m2, m3, m4, m5, m6⟩ := ageHdr_members hd h1 hi h2 (num := hs.length) (by omega) (hs.map (le 4)).flatten
  have hl : (ageHdr dev cxt b t hs.length ++ (hs.map (le 4)).flatten).length = 32 + 4 * hs.length := by
    rw [List.length_append, ageHdr_length, handles_length]
  have hm : (List.range hs.length).mapM (handleAt (ageHdr dev cxt b t hs.length ++ (hs.map (le 4)).flatten)) = some hs := by
    refine mapM_range _ _ _ rfl (fun i x hx => ?_)
    have hlt := (List.getElem?_eq_some_iff.1 hx).1
    rw [handleAt, hl, if_pos (by omega), member, drop_skip (ageHdr_length ..) _ (by omega), Nat.add_sub_cancel_left]
    have := flatten_slice (k := 4) (l := hs.map (le 4)) (by simp [le_length]) (x := le 4 x)
      (by rw [List.getElem?_map, hx]; rfl) []
    rw [List.append_nil] at this
    rw [this, unle_le4 (h6 x (List.mem_of_getElem? hx))]
  unfold capture
  rw [if_neg (by omega), m1, if_neg (by decide), if_neg (by decide), if_pos rfl]
  unfold handleAge
  rw [m2, m4, m6, hm]
  simp only [Bool.false_eq_true, if_false]
  by_cases e0 : env.tableName t = ""
  · simp [Env.table, e0]
  · cases e2 : env.info dev with
    | none => simp [Env.table, e0, e2]
    | some info =>
      cases e3 : info.tableId (env.tableName t) with
      | none => simp [Env.table, e0, e2, e3]
      | some id => simp [Env.table, e0, e2, e3]

theorem capture_other (env : Env) (b : Bool) {m : Bytes} (h1 : m.take 4 ≠ swp) (h2 : m.take 4 ≠ lea)
    (h3 : m.take 4 ≠ age) : capture env b m = some (b, []) := by
  unfold capture
  rw [if_neg h1, if_neg h2, if_neg h3, ite_self]

/-- Nothing is told while an exchange is believed to be going on. -/
theorem capture_held (env : Env) {m : Bytes} (h : m.take 4 ≠ swp) : capture env true m = some (true, []) := by
  have e1 : handleLea env true m = some [] := rfl
  have e2 : handleAge env true m = some [] := rfl
  unfold capture
  rw [if_neg h, e1, e2]
  split
  · rfl
  · split
    · rfl
    · split <;> rfl

theorem sent_topic {dev : Nat} (e : Event) : ∀ m ∈ sent dev e, m.take 4 ≠ swp := by
  intro m hm
  cases e with
  | learn cxt list b samples =>
    obtain rfl := List.mem_singleton.1 hm
    rw [learnMessage, List.append_assoc, List.take_append_of_le_length (by decide)]; decide
  | age cxt b t hs =>
    obtain rfl := List.mem_singleton.1 hm
    rw [ageMessage, List.append_assoc, List.take_append_of_le_length (by decide)]; decide
  | ports cs =>
    simp only [sent, portMessage] at hm
    split at hm
    · simp at hm
    · obtain rfl := List.mem_singleton.1 hm
      rw [List.append_assoc, List.take_append_of_le_length (by decide)]; decide
  | probe x =>
    obtain rfl := List.mem_singleton.1 hm
    rw [(probe_take dev x).1]; decide

/-! ## Samples -/

/-- All samples that a list holds have a property. -/
def Holds (P : Bytes → Prop) (s : Learn.LL Bytes) : Prop := (∀ x ∈ s.buffer, P x) ∧ ∀ x ∈ s.tmp, P x

theorem Holds.swap {P : Bytes → Prop} {s : Learn.LL Bytes} (h : Holds P s) : Holds P (Learn.swapBuffers s) := ⟨h.2, h.1⟩

theorem Holds.full {P : Bytes → Prop} {s : Learn.LL Bytes} (h : Holds P s) : Holds P (Learn.processFull s) := by
  unfold Learn.processFull
  split
  · exact h
  · exact h.swap

theorem Holds.exec {P : Bytes → Prop} {s s' : Learn.LL Bytes} {op : Learn.Op Bytes} {r : Learn.Res Bytes} (h : Holds P s)
    (ho : ∀ x, op = .learn x → P x) (he : Learn.exec s op = some (r, s')) :
    Holds P s' ∧ ∀ y, r = .msg y → ∀ x ∈ y.samples, P x := by
  cases op with
  | learn x =>
    simp only [Learn.exec, Option.some.injEq, Prod.mk.injEq] at he
    obtain ⟨rfl, rfl⟩ := he
    refine ⟨?_, fun y hy => by cases hy⟩
    unfold Learn.addSample
    split
    · exact h
    · have hb : ∀ z ∈ s.buffer ++ [x], P z := by
        intro z hz
        rcases List.mem_append.1 hz with hz | hz
        · exact h.1 z hz
        · obtain rfl := List.mem_singleton.1 hz
          exact ho _ rfl
      dsimp only
      split
      · exact ⟨hb, h.2⟩
      · split
        · exact Holds.full ⟨hb, h.2⟩
        · exact ⟨hb, h.2⟩
  | wake =>
    simp only [Learn.exec, Learn.wake] at he
    split at he
    · cases he; exact ⟨h, fun y hy => by cases hy⟩
    · rename_i s1 h1
      split at h1
      · cases h1; cases he; exact ⟨Holds.swap (s := { s with waiting := _ }) h, fun y hy => by cases hy⟩
      · cases h1
  | transmit e =>
    simp only [Learn.exec] at he
    split at he
    · cases he; exact ⟨h, fun y hy => by cases hy⟩
    · rename_i m s1 h1
      cases he
      simp only [Learn.transmit] at h1
      split at h1
      · cases h1
      · split at h1
        · cases h1
        · split at h1
          · cases h1
            refine ⟨⟨h.swap.1, h.swap.2⟩, fun y hy => ?_⟩
            cases hy; exact h.1
          · cases h1
            refine ⟨⟨h.1, h.2⟩, fun y hy => ?_⟩
            cases hy; exact h.2
  | transmitEnd =>
    simp only [Learn.exec, Learn.transmitEnd] at he
    split at he
    · cases he; exact ⟨h, fun y hy => by cases hy⟩
    · rename_i s1 h1
      split at h1
      · cases h1; cases he; exact ⟨⟨h.1, by simp⟩, fun y hy => by cases hy⟩
      · cases h1
  | ack b ids =>
    simp only [Learn.exec, Learn.ack, Option.map_eq_some_iff, Prod.mk.injEq] at he
    obtain ⟨s1, h1, rfl, rfl⟩ := he
    refine ⟨?_, fun y hy => by cases hy⟩
    split at h1
    · cases h1; exact h
    · rename_i fp _
      cases h2 : Learn.ackLoop ids (some fp) s.filter with
      | none => rw [h2] at h1; cases h1
      | some p => rw [h2] at h1; cases h1; exact ⟨h.1, h.2⟩
  | ackBuffer b =>
    simp only [Learn.exec, Learn.ackBuffer, Option.map_eq_some_iff, Prod.mk.injEq] at he
    obtain ⟨s1, h1, rfl, rfl⟩ := he
    refine ⟨?_, fun y hy => by cases hy⟩
    split at h1
    · cases h1; exact h
    · rename_i fp _
      split at h1
      · cases h1; exact ⟨h.1, h.2⟩
      · cases h2 : Learn.eraseAll fp.refs s.filter with
        | none => rw [h2] at h1; cases h1
        | some p => rw [h2] at h1; cases h1; exact ⟨h.1, h.2⟩
  | setMax n =>
    simp only [Learn.exec, Option.some.injEq, Prod.mk.injEq] at he
    obtain ⟨rfl, rfl⟩ := he
    refine ⟨?_, fun y hy => by cases hy⟩
    unfold Learn.setMax
    dsimp only
    split
    · exact Holds.full ⟨h.1, h.2⟩
    · exact ⟨h.1, h.2⟩
  | reset =>
    simp only [Learn.exec, Learn.reset, Option.map_eq_some_iff, Prod.mk.injEq] at he
    obtain ⟨s1, h1, rfl, rfl⟩ := he
    refine ⟨?_, fun y hy => by cases hy⟩
    split at h1
    · cases h1
    · cases h1; exact ⟨by simp, by simp⟩

theorem Holds.run {P : Bytes → Prop} : ∀ {ops : List (Learn.Op Bytes)} {s s' : Learn.LL Bytes}
    {t : List (Learn.Op Bytes × Learn.Res Bytes)}, Holds P s → (∀ x, Learn.Op.learn x ∈ ops → P x) →
    Learn.run s ops = some (t, s') → ∀ op y, (op, Learn.Res.msg y) ∈ t → ∀ x ∈ y.samples, P x
  | [], s, s', t, _, _, hr, op, y, hy => by
    simp only [Learn.run, Option.some.injEq, Prod.mk.injEq] at hr
    obtain ⟨rfl, rfl⟩ := hr
    simp at hy
  | o :: ops, s, s', t, h, ho, hr, op, y, hy => by
    simp only [Learn.run, Option.bind_eq_bind, Option.bind_eq_some_iff] at hr
    obtain ⟨⟨r, s1⟩, h1, ⟨t1, s2⟩, h2, h3⟩ := hr
    simp only [Option.pure_def, Option.some.injEq, Prod.mk.injEq] at h3
    obtain ⟨rfl, rfl⟩ := h3
    obtain ⟨h4, h5⟩ := h.exec (fun x hx => ho x (by simp [hx])) h1
    rcases List.mem_cons.1 hy with hy | hy
    · cases hy; exact h5 y rfl
    · exact Holds.run h4 (fun x hx => ho x (by simp [hx])) h2 op y hy

end Bm.Notify
