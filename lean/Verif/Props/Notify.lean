import Verif.Lemmas.NotifyRun

/-!
# C105: controllers are told what happened

Of every notification a controller has a callback for, it is told exactly once, in order, with the device, the context, the
numbers and all of the data; PI is told in terms of its own numbers.
-/

namespace Bm.Notify
open Elog Bm.Notify.Spec

/-! ## Listeners -/

/-- What a controller with callbacks of the kinds in `learn`, `age`, `port` is told about each of a sequence of events. -/
def Told (learn age port : Bool) (dev : Nat) (es : List Event) (css : List (List Call)) : Prop :=
  List.Forall₂ (fun e cs => if e.wanted learn age port then Tells dev e cs else cs = []) es css

/-- `NotificationsListener`, messages of at most 4096 bytes of data. -/
theorem C105_listener_partial (g : Regs) (dev : Nat) (hd : dev < 2 ^ 64) : ∀ (es : List Event) (r : Rx), r.WF →
    (∀ e ∈ es, e.Fits ∧ e.size ≤ 4096) →
    ∃ calls css, listen g r (es.flatMap (sent dev)) = some calls ∧ calls.flatten = css.flatten ∧
      Told g.learn g.age g.port dev es css
  | [], _, _, _ => ⟨[], [], rfl, rfl, .nil⟩
  | e :: es, r, h, he => by
    have hr := fun x hx => he x (List.mem_cons_of_mem _ hx)
    rcases listen_event (g := g) h hd (he e (by simp)).1 (he e (by simp)).2 with ⟨h1, h2⟩ | ⟨m, r', cs, h1, h2, h3, h4⟩
    · obtain ⟨calls, css, i1, i2, i3⟩ := C105_listener_partial g dev hd es r h hr
      refine ⟨calls, [] :: css, ?_, by rw [i2]; rfl, .cons ?_ i3⟩
      · rw [List.flatMap_cons, h1, List.nil_append, i1]
      · split
        · exact h2
        · rfl
    · obtain ⟨calls, css, i1, i2, i3⟩ := C105_listener_partial g dev hd es r' h3 hr
      refine ⟨cs :: calls, cs :: css, ?_, by rw [List.flatten_cons, List.flatten_cons, i2], .cons h4 i3⟩
      rw [List.flatMap_cons, h1, List.singleton_append, listen, h2]
      simp only [Option.bind_eq_bind, Option.bind_some, i1]
      rfl

/-- `LearnListener`, messages of at most 4096 bytes of data. -/
theorem C105_learn_listener_partial (dev : Nat) (hd : dev < 2 ^ 64) : ∀ (es : List Event) (r : Rx), r.WF →
    (∀ e ∈ es, e.Fits ∧ e.size ≤ 4096) →
    ∃ css, (listenLearn r (es.flatMap (sent dev))).flatten = css.flatten ∧ Told true false false dev es css
  | [], _, _, _ => ⟨[], rfl, .nil⟩
  | e :: es, r, h, he => by
    have hr := fun x hx => he x (List.mem_cons_of_mem _ hx)
    rcases learn_event h hd (he e (by simp)).1 (he e (by simp)).2 with ⟨h1, h2⟩ | ⟨m, h1, h2, h3⟩
    · obtain ⟨css, i1, i2⟩ := C105_learn_listener_partial dev hd es r h hr
      refine ⟨[] :: css, ?_, .cons ?_ i2⟩
      · rw [List.flatMap_cons, h1, List.nil_append, i1]; rfl
      · rw [h2]; rfl
    · obtain ⟨css, i1, i2⟩ := C105_learn_listener_partial dev hd es _ h2 hr
      refine ⟨(learnListener r m).2 :: css, ?_, .cons h3 i2⟩
      rw [List.flatMap_cons, h1, List.singleton_append, listenLearn, List.flatten_cons, List.flatten_cons, i1]

/-- With samples of `w` bytes, what a callback reads as sample `i` is sample `i`. -/
theorem C105_samples {samples : List Bytes} {data : Bytes} {w : Nat} (hw : ∀ x ∈ samples, x.length = w)
    (h : samples.flatten <+: data) (i : Nat) (hi : i < samples.length) : sampleAt data w i = samples[i]? := by
  obtain ⟨q, rfl⟩ := h
  have hx : samples[i]? = some samples[i] := List.getElem?_eq_getElem hi
  have hl := flatten_length hw
  have hle : i * w + w ≤ w * samples.length := by
    rw [← Nat.succ_mul, Nat.mul_comm]
    exact Nat.mul_le_mul_left _ hi
  rw [sampleAt, if_pos (by rw [List.length_append, hl]; omega), Nat.mul_comm i w, flatten_slice hw hx, hx]

/-- An acknowledgement arrives as it was meant. -/
theorem C105_acknowledge {cxt buffer : Nat} (list : Int) (h1 : cxt < 2 ^ 32) (h2 : buffer < 2 ^ 64) :
    ackServed (ackRequest cxt list buffer) = (cxt, list, buffer) := by
  have e1 : ((signed (le 4 cxt)) % 2 ^ 32).toNat = cxt := by
    rw [signed, unle_le4 h1]
    split <;> omega
  have e2 : ((if buffer < 2 ^ 63 then (buffer : Int) else (buffer : Int) - 2 ^ 64) % 2 ^ 64).toNat = buffer := by
    split <;> omega
  simp only [ackServed, ackRequest, e1, e2]

theorem mem_seen {m : Nat} (t : List (Learn.Op Bytes × Learn.Res Bytes)) :
    ∀ y ∈ (Bm.Spec.Learn.seen m t).msgs, ∃ op, (op, Learn.Res.msg y) ∈ t := by
  induction t using List.reverseRecOn with
  | nil => intro y hy; cases hy
  | append_singleton t e ih =>
    intro y hy
    rw [Learn.seen_snoc] at hy
    have lift : (∃ op, (op, Learn.Res.msg y) ∈ t) → ∃ op, (op, Learn.Res.msg y) ∈ t ++ [e] :=
      fun ⟨op, h⟩ => ⟨op, List.mem_append_left _ h⟩
    obtain ⟨op, res⟩ := e
    cases op with
    | transmit b =>
      cases res with
      | msg x =>
        rcases List.mem_append.1 hy with hy | hy
        · exact lift (ih y hy)
        · obtain rfl := List.mem_singleton.1 hy
          exact ⟨_, List.mem_append_right _ (List.mem_singleton_self _)⟩
      | ok => exact lift (ih y hy)
      | waits => exact lift (ih y hy)
    | reset => cases hy
    | learn _ => exact lift (ih y hy)
    | wake => exact lift (ih y hy)
    | transmitEnd => exact lift (ih y hy)
    | ack _ _ => exact lift (ih y hy)
    | ackBuffer _ => exact lift (ih y hy)
    | setMax _ => exact lift (ih y hy)

/-- From the samples a list learned to what a controller with a `LearnListener` reads: one call for each notification, each
sample where the switch has it, and the acknowledgement of a notification refers to it.  By C27 no sample is read twice at
different places unless one of them was acknowledged. -/
theorem C105_digest_partial (max : Nat) (ops : List (Learn.Op Bytes)) (hc : Learn.CarefulRun max ops) (w : Nat) (hpos : 0 < w)
    (hw : ∀ x, Learn.Op.learn x ∈ ops → x.length = w) :
    ∃ t s, Learn.run { maxSamples := max } ops = some (t, s) ∧
      (∀ y ∈ (Bm.Spec.Learn.seen max t).msgs, ∀ z ∈ (Bm.Spec.Learn.seen max t).msgs, ∀ (i j : Nat) (x : Bytes),
        y.samples[i]? = some x → z.samples[j]? = some x → (y.id, i) ≠ (z.id, j) →
        (Bm.Spec.Learn.seen max t).acked y.id i = true ∨ (Bm.Spec.Learn.seen max t).acked z.id j = true) ∧
      ∀ (r : Rx) (dev cxt : Nat) (list : Int), r.WF → dev < 2 ^ 64 → cxt < 2 ^ 32 → I32 list →
        (∀ y ∈ (Bm.Spec.Learn.seen max t).msgs, y.id < 2 ^ 64 ∧ w * y.num ≤ 4096) →
        List.Forall₂ (fun y cs => ∃ data, cs = [.learn dev cxt list y.id y.num data] ∧ y.num = y.samples.length ∧
            (∀ i < y.num, sampleAt data w i = y.samples[i]?) ∧ ackServed (ackRequest cxt list y.id) = (cxt, list, y.id))
          (Bm.Spec.Learn.seen max t).msgs
          (listenLearn r ((Bm.Spec.Learn.seen max t).msgs.map (learnMessage dev cxt list))) := by
  obtain ⟨t, s, h1, h2⟩ := Learn.C27_once max ops hc
  obtain ⟨t', s', S, h1', -, -, h3, -⟩ := Learn.C27_partial max ops hc
  rw [h1] at h1'
  cases h1'
  refine ⟨t, s, h1, h2, fun r dev cxt list hr hd hx hl => ?_⟩
  have hall : ∀ y ∈ (Bm.Spec.Learn.seen max t).msgs, y.num = y.samples.length ∧ ∀ x ∈ y.samples, x.length = w := by
    intro y hy
    obtain ⟨op, hop⟩ := mem_seen t y hy
    exact ⟨(h3 y hy).1, Holds.run (P := fun x => x.length = w) (s := { maxSamples := max }) ⟨by simp, by simp⟩ hw h1 op y hop⟩
  generalize (Bm.Spec.Learn.seen max t).msgs = ys at hall
  intro hb
  induction ys generalizing r with
  | nil => exact .nil
  | cons y ys ih =>
    obtain ⟨a1, a2⟩ := hall y (by simp)
    obtain ⟨b1, b2⟩ := hb y (by simp)
    have hlen : y.samples.flatten.length ≤ 4096 := by rw [flatten_length a2, ← a1]; exact b2
    have hnum : y.num ≤ 4096 := Nat.le_trans (Nat.le_mul_of_pos_left _ hpos) b2
    have hf : (Event.learn cxt list y.id y.samples).Fits :=
      ⟨hx, hl.1, hl.2, b1, by rw [← a1]; omega, by omega⟩
    rcases learn_event hr hd hf hlen with ⟨_, h⟩ | ⟨m, e1, e2, e3⟩
    · cases h
    · have em : m = learnMessage dev cxt list y := by
        rw [sent, ← a1] at e1
        exact (List.singleton_inj.1 e1).symm
      subst em
      rw [List.map_cons, listenLearn]
      refine .cons ?_ (ih _ e2 (fun z hz => hall z (by simp [hz])) (fun z hz => hb z (by simp [hz])))
      obtain ⟨data, e4, e5⟩ := e3
      refine ⟨data, by rw [e4, a1], a1, fun i hi => C105_samples a2 e5 i (by omega), C105_acknowledge list hx b1⟩

/-! ### The hypotheses are met -/

def c105Rx : Rx := ⟨List.replicate 32 0, List.replicate 4096 0⟩

theorem c105_wf : c105Rx.WF := by exact ⟨List.length_replicate, List.length_replicate⟩

def c105Events : List Event :=
  [.learn 0 (-3) 7 [[1, 2], [3, 4], [5, 6]], .ports [(3, true), (511, false)], .ports [], .probe 9, .age 1 12 5 [0, 70000]]

example : ∀ e ∈ c105Events, e.Fits ∧ e.size ≤ 4096 := by
  simp [c105Events, Event.Fits, Event.size]
  omega

/-- What is compared: the numbers and the first bytes. -/
def c105Show : Call → (Nat × Nat × Int) × (Nat × Nat × List Nat)
  | .learn d c l b n data => ((d, c, l), b, n, (data.take 6).map UInt8.toNat)
  | .age d c t b n data => ((d, c, t), b, n, (data.take 8).map UInt8.toNat)
  | .port d p up => ((d, 0, p), 0, if up then 1 else 0, [])

set_option synthInstance.maxHeartbeats 200000 in
set_option synthInstance.maxSize 1024 in
example : (listen ⟨true, true, true⟩ c105Rx (c105Events.flatMap (sent 4))).map (·.map (·.map c105Show)) =
    some [[((4, 0, -3), 7, 3, [1, 2, 3, 4, 5, 6])], [((4, 0, 3), 0, 1, []), ((4, 0, 511), 0, 0, [])], [],
      [((4, 1, 5), 12, 2, [0, 0, 0, 0, 0x70, 0x11, 1, 0])]] := by
  decide +kernel

def c105Ops : List (Learn.Op Bytes) :=
  [.learn [1, 2], .learn [1, 2], .learn [3, 4], .transmit false, .learn [5, 6], .transmitEnd, .transmit true]

theorem c105_careful : Learn.CarefulRun 2 c105Ops := by
  have h0 : Learn.CarefulRun 2 ([] : List (Learn.Op Bytes)) := by
    intro pre o suf he; simp at he
  exact h0.append c105Ops (by simp [c105Ops, Bm.Spec.Learn.Careful])

example : (Learn.run { maxSamples := 2 } c105Ops).map (fun p => (Bm.Spec.Learn.seen 2 p.1).msgs) =
    some [⟨0, 2, [[1, 2], [3, 4]]⟩, ⟨1, 1, [[5, 6]]⟩] := by decide +kernel

example := C105_digest_partial 2 c105Ops c105_careful 2 (by omega) (by simp [c105Ops])

/-! ### The full statement is false: long notifications -/

/-- Of more than 4096 bytes of samples only the first 4096 arrive, though the number of samples is that of all. -/
theorem C105_refuted_long {r : Rx} (h : r.WF) {dev cxt b : Nat} {list : Int} {samples : List Bytes} (hd : dev < 2 ^ 64)
    (hf : (Event.learn cxt list b samples).Fits) (hs : 4096 < samples.flatten.length) :
    ∃ m, sent dev (.learn cxt list b samples) = [m] ∧
      (learnListener r m).2 = [.learn dev cxt list b samples.length (samples.flatten.take 4096)] ∧
      ¬ Tells dev (.learn cxt list b samples) (learnListener r m).2 := by
  obtain ⟨h1, h2, h3, h4, h5, h6⟩ := hf
  have hi : I32 list := ⟨h2, h3⟩
  have em : learnMessage dev cxt list ⟨b, samples.length, samples⟩ =
      learnHdr dev cxt list b samples.length ++ samples.flatten := learnMessage_eq h6
  have ht : (learnHdr dev cxt list b samples.length ++ samples.flatten).take 3 = lea.take 3 := by
    rw [learnHdr, List.append_assoc, List.take_append_of_le_length (by decide)]
  have hc : (learnListener r (learnMessage dev cxt list ⟨b, samples.length, samples⟩)).2 =
      [.learn dev cxt list b samples.length (samples.flatten.take 4096)] := by
    rw [em, learnListener, if_pos ht, learnCall_recv h hd h1 hi h4 h5, Rx.recv_long h (learnHdr_length ..) (by omega)]
  refine ⟨_, rfl, hc, ?_⟩
  rw [hc]
  rintro ⟨data, hdata, hp⟩
  simp only [List.cons.injEq, Call.learn.injEq, and_true, true_and] at hdata
  have := hp.length_le
  rw [← hdata, List.length_take] at this
  omega

/-- Then a callback that reads the last sample reads behind the buffer. -/
theorem C105_refuted_last_sample {samples : List Bytes} {w : Nat} (hw : ∀ x ∈ samples, x.length = w)
    (hs : 4096 < samples.flatten.length) :
    sampleAt (samples.flatten.take 4096) w (samples.length - 1) = none := by
  have hl := flatten_length hw
  have hn : 0 < samples.length := by
    cases samples with
    | nil => simp at hs
    | cons _ _ => simp
  have e : (samples.length - 1) * w + w = w * samples.length := by
    rw [← Nat.succ_mul, Nat.succ_eq_add_one, Nat.sub_add_cancel hn, Nat.mul_comm]
  rw [sampleAt, if_neg (by rw [e, ← hl, List.length_take]; omega)]

/-- A list that is set to three samples, of 2048 bytes, sends such a notification. -/
def c105Long : List (Learn.Op Bytes) :=
  [.learn (List.replicate 2048 1), .learn (List.replicate 2048 2), .learn (List.replicate 2048 3), .transmit false]

theorem c105_long : (Learn.run { maxSamples := 3 } c105Long).map (fun p => (Bm.Spec.Learn.seen 3 p.1).msgs) =
    some [⟨0, 3, [List.replicate 2048 1, List.replicate 2048 2, List.replicate 2048 3]⟩] := by
  decide +kernel

example : (Event.learn 0 1 0 [List.replicate 2048 1, List.replicate 2048 2, List.replicate 2048 3]).Fits ∧
    4096 < [List.replicate 2048 (1 : UInt8), List.replicate 2048 2, List.replicate 2048 3].flatten.length := by
  have e : [List.replicate 2048 (1 : UInt8), List.replicate 2048 2, List.replicate 2048 3].flatten.length = 6144 := by
    decide +kernel
  refine ⟨⟨?_, ?_, ?_, ?_, ?_, ?_⟩, ?_⟩
  · omega
  · omega
  · omega
  · omega
  · decide
  · rw [e]; omega
  · rw [e]; omega

theorem mapM_none {α β} {f : α → Option β} : ∀ {l : List α} {a : α}, a ∈ l → f a = none → l.mapM f = none
  | x :: l, a, ha, h => by
    rw [List.mapM_cons]
    rcases List.mem_cons.1 ha with rfl | ha
    · rw [h]; rfl
    · rw [mapM_none ha h]
      cases f x <;> rfl

/-- More than 512 ports that change at once: the listener reads behind its buffer. -/
theorem C105_refuted_ports {r : Rx} (h : r.WF) {dev : Nat} {g : Regs} (hg : g.port = true) {cs : List (Nat × Bool)}
    (hd : dev < 2 ^ 64) (hf : (Event.ports cs).Fits) (hs : 512 < cs.length) :
    ∃ m, sent dev (.ports cs) = [m] ∧ listener g r m = none := by
  have hn : cs ≠ [] := by rintro rfl; simp at hs
  refine ⟨_, portMessage_eq hf.1 hn, ?_⟩
  obtain ⟨m1, m2, m3⟩ := portHdr_members hd (num := cs.length) (by have := hf.1; omega) []
  rw [List.append_nil] at m1 m2 m3
  have hw := Rx.recv_wf h (portHdr dev cs.length ++ (cs.map oneStatus).flatten)
  have hp : portCalls (r.recv (portHdr dev cs.length ++ (cs.map oneStatus).flatten)) = none := by
    rw [portCalls, Rx.recv_hdr h (portHdr_length ..), m3]
    refine mapM_none (a := 512) (List.mem_range.2 hs) ?_
    rw [statusAt, if_neg (by rw [hw.2]; omega)]
  simp only [listener, Rx.recv_hdr h (portHdr_length ..), m1, hg, hp]
  rfl

/-! ## PI -/

/-- Something that happens, with what can be looked up then and what the numbers mean in each context. -/
structure Moment where
  env : Env
  digest : Nat → Int → Option (Nat × Nat)
  table : Nat → Int → Option Nat
  item : Bm.Notify.Spec.Item

/-- What is looked up is right for context 0. -/
def Moment.Right (dev : Nat) (x : Moment) : Prop :=
  (∀ l, x.env.digest dev l = x.digest 0 l) ∧ ∀ t, x.env.table dev t = x.table 0 t

/-- Notifications of context 0 with samples of the size PI expects. -/
def Moment.InScope (x : Moment) : Prop :=
  match x.item with
  | .event (.learn cxt list b samples) => (Event.learn cxt list b samples).Fits ∧ cxt = 0 ∧ samples ≠ [] ∧
      ∀ id size, x.digest 0 list = some (id, size) → ∀ s ∈ samples, s.length = size
  | .event (.age cxt b t hs) => (Event.age cxt b t hs).Fits ∧ cxt = 0
  | _ => True

/-- PI is told what happened. -/
def Moment.Told (dev : Nat) (x : Moment) (es : List PiEvent) : Prop :=
  match x.item with
  | .event e => PiTells x.digest x.table dev e es
  | _ => es = []

theorem captureAll_append (b : Bool) (a c : List (Env × Bytes)) (b' : Bool) (es : List (List PiEvent))
    (h : ∀ rest, captureAll b (a ++ rest) = (captureAll b' rest).map (es ++ ·)) {r} (hr : captureAll b' c = some r) :
    captureAll b (a ++ c) = some (es ++ r) := by rw [h, hr]; rfl

theorem capture_one {b b' : Bool} {env : Env} {m : Bytes} {es : List PiEvent} (h : capture env b m = some (b', es))
    {c : List (Env × Bytes)} {r} (hr : captureAll b' c = some r) : captureAll b ((env, m) :: c) = some (es :: r) := by
  rw [captureAll, h]
  simp only [Option.bind_eq_bind, Option.bind_some, hr]
  rfl

/-- What becomes of an event while no exchange is believed to be going on. -/
theorem capture_event {dev : Nat} (hd : dev < 2 ^ 64) {x : Moment} {e : Event} (he : x.item = .event e) (h1 : x.Right dev)
    (h2 : x.InScope) : ∃ es, (∀ {c : List (Env × Bytes)} {r}, captureAll false c = some r → ∃ r',
      captureAll false ((sent dev e).map (x.env, ·) ++ c) = some r' ∧ r'.flatten = es ++ r.flatten) ∧
      PiTells x.digest x.table dev e es := by
  cases e with
  | learn cxt list b samples =>
    simp only [Moment.InScope, he] at h2
    obtain ⟨f1, rfl, f3, f4⟩ := h2
    have hc := capture_learn x.env hd f1 f3 (by rw [h1.1]; exact f4)
    rw [h1.1] at hc
    exact ⟨_, fun hr => ⟨_, capture_one hc hr, rfl⟩, rfl⟩
  | age cxt b t hs =>
    simp only [Moment.InScope, he] at h2
    obtain ⟨f1, rfl⟩ := h2
    have hc := capture_age x.env hd f1
    rw [h1.2] at hc
    exact ⟨_, fun hr => ⟨_, capture_one hc hr, rfl⟩, rfl⟩
  | ports cs =>
    refine ⟨[], fun {c r} hr => ?_, rfl⟩
    by_cases hn : cs = []
    · subst hn; exact ⟨r, hr, rfl⟩
    · have ht : ((prt ++ (le 8 dev ++ (le 4 cs.length ++ List.replicate 16 0))) ++ buf (cs.map oneStatus).flatten).take 4 =
          prt := by rw [List.append_assoc, List.take_append_of_le_length (by decide)]; rfl
      refine ⟨[] :: r, ?_, ?_⟩
      · rw [sent, portMessage, if_neg hn]
        exact capture_one (capture_other x.env false (by rw [ht]; decide) (by rw [ht]; decide) (by rw [ht]; decide)) hr
      · rfl
  | probe v =>
    have ht := (probe_take dev v).1
    refine ⟨[], fun {c r} hr => ?_, rfl⟩
    exact ⟨_, capture_one (capture_other x.env false (by rw [ht]; decide) (by rw [ht]; decide) (by rw [ht]; decide)) hr,
      by rw [List.flatten_cons]⟩

/-- PI is told of the notifications of context 0, in order, with its own numbers and all of the data. -/
theorem C105_pi_partial (dev : Nat) (hd : dev < 2 ^ 64) : ∀ xs : List Moment, (∀ x ∈ xs, x.Right dev ∧ x.InScope) →
    ∃ ess dss, captureAll false (xs.flatMap fun x => (published dev x.item).map (x.env, ·)) = some ess ∧
      ess.flatten = dss.flatten ∧ List.Forall₂ (Moment.Told dev) xs dss
  | [], _ => ⟨[], [], rfl, rfl, .nil⟩
  | x :: xs, h => by
    obtain ⟨ess, dss, i1, i2, i3⟩ := C105_pi_partial dev hd xs fun y hy => h y (List.mem_cons_of_mem _ hy)
    obtain ⟨h1, h2⟩ := h x (by simp)
    cases he : x.item with
    | event e =>
      obtain ⟨es, k1, k2⟩ := capture_event hd he h1 h2
      obtain ⟨r', k3, k4⟩ := k1 i1
      refine ⟨r', es :: dss, ?_, by rw [k4, i2, List.flatten_cons], .cons ?_ i3⟩
      · rw [List.flatMap_cons, he]; exact k3
      · rw [Moment.Told, he]; exact k2
    | loaded c =>
      refine ⟨ess, [] :: dss, ?_, by rw [i2]; rfl, .cons (by rw [Moment.Told, he]) i3⟩
      rw [List.flatMap_cons, he]; exact i1
    | requested c =>
      refine ⟨ess, [] :: dss, ?_, by rw [i2]; rfl, .cons (by rw [Moment.Told, he]) i3⟩
      rw [List.flatMap_cons, he]; exact i1
    | completed c =>
      refine ⟨ess, [] :: dss, ?_, by rw [i2]; rfl, .cons (by rw [Moment.Told, he]) i3⟩
      rw [List.flatMap_cons, he]; exact i1

/-! ### The hypotheses are met -/

def c105Info : P4Info := ⟨fun s => if s = "mac" then some 20 else none, fun _ => 2, fun s => if s = "t" then some 30 else none⟩

/-- The program of context 0: list 5 is digest `mac`, table 0 is `t`. -/
def c105Env : Env := ⟨fun l => if l = 5 then some "mac" else none, fun t => if t = 0 then "t" else "", fun d => if d = 4 then
  some c105Info else none⟩

/-- In other contexts there are no digests and no tables. -/
def c105Moment (i : Bm.Notify.Spec.Item) : Moment :=
  ⟨c105Env, fun c l => if c = 0 then c105Env.digest 4 l else none, fun c t => if c = 0 then c105Env.table 4 t else none, i⟩

theorem c105_right (i) : (c105Moment i).Right 4 := ⟨fun _ => rfl, fun _ => rfl⟩

example : (c105Moment (.event (.learn 0 5 7 [[1, 2], [3, 4]]))).InScope ∧ (c105Moment (.event (.age 0 7 0 [9, 10]))).InScope := by
  refine ⟨⟨by simp [Event.Fits], rfl, by simp, ?_⟩, by simp [Event.Fits], rfl⟩
  intro id size h
  have e : c105Env.digest 4 5 = some (20, 2) := by decide +kernel
  have h : c105Env.digest 4 5 = some (id, size) := h
  rw [e] at h
  cases h
  simp

example : captureAll false (([.event (.learn 0 5 7 [[1, 2], [3, 4]]), .loaded 0, .event (.age 0 7 0 [9, 10])] :
      List Bm.Notify.Spec.Item).flatMap fun i => (published 4 i).map (c105Env, ·)) =
    some [[.digest 4 0 20 7 2 2 [1, 2, 3, 4]], [.idle 4 30 9, .idle 4 30 10]] := by decide +kernel

/-! ### The full statement is false: other contexts, exchanges of programs -/

/-- A notification of context 1 is taken for one of context 0 with the same number. -/
theorem C105_refuted_context : ∃ x : Moment, x.Right 4 ∧ ∃ es,
    captureAll false ((published 4 x.item).map (x.env, ·)) = some [es] ∧ ¬ x.Told 4 es := by
  refine ⟨c105Moment (.event (.learn 1 5 7 [[1, 2]])), c105_right _, [.digest 4 1 20 7 1 2 [1, 2]], by decide +kernel, ?_⟩
  show ¬ ([PiEvent.digest 4 1 20 7 1 2 [1, 2]] = [])
  simp

/-- What would be published if `send_swap_status_notification` sent what it prepares. -/
def announced (dev : Nat) : Bm.Notify.Spec.Item → List Bytes
  | .event e => sent dev e
  | .loaded cxt => [swapMessage dev cxt 0]
  | .requested cxt => [swapMessage dev cxt 1]
  | .completed cxt => [swapMessage dev cxt 2]

/-- The steps of an exchange are never published. -/
theorem C105_refuted_silent (dev : Nat) (i : Bm.Notify.Spec.Item) (h : ∀ e, i ≠ Spec.Item.event e) :
    published dev i = [] ∧ announced dev i ≠ [] := by
  cases i with
  | event e => exact absurd rfl (h e)
  | loaded c => exact ⟨rfl, by simp [announced]⟩
  | requested c => exact ⟨rfl, by simp [announced]⟩
  | completed c => exact ⟨rfl, by simp [announced]⟩

/-- So PI is told of notifications while programs are being exchanged (when its numbers are those of the new program and the
names those of the old one), which the capture is there to prevent. -/
theorem C105_refuted_swap : ∃ (a : List Bm.Notify.Spec.Item) (e : Event) (es : List PiEvent), swapping a = true ∧ es ≠ [] ∧
    captureAll false ((a ++ [Spec.Item.event e]).flatMap fun i => (published 4 i).map (c105Env, ·)) = some [es] :=
  ⟨[.loaded 0], .learn 0 5 7 [[1, 2]], [.digest 4 0 20 7 1 2 [1, 2]], by decide, by simp, by decide +kernel⟩

/-- An exchange is going on in context 0 after this, given whether one was before. -/
def swapNext (b : Bool) : Bm.Notify.Spec.Item → Bool
  | .loaded 0 => true
  | .completed 0 => false
  | _ => b

theorem swapping_snoc (a : List Bm.Notify.Spec.Item) (i) : swapping (a ++ [i]) = swapNext (swapping a) i := by
  have key : ∀ l, swapping l = l.foldl swapNext false := by
    intro l
    cases l with
    | nil => rfl
    | cons j l =>
      show List.foldl _ _ _ = _
      congr 1
  rw [key, key, List.foldl_append]
  rfl

theorem captureSwap {env : Env} {b : Bool} {dev cxt : Nat} {st : Int} (h : cxt < 2 ^ 32) (h3 : I32 st) :
    capture env b (swapMessage dev cxt st) =
      some (if cxt ≠ 0 then b else if st = 0 then true else if st = 2 ∨ st = 3 then false else b, []) := by
  obtain ⟨s1, s2, s3, s4⟩ := swap_members (dev := dev) h h3
  rw [capture, if_neg (by omega), if_pos s2, handleSwp, s3, s4]

/-- Context numbers fit. -/
def SwapFits : Bm.Notify.Spec.Item → Prop
  | .event _ => True
  | .loaded c | .requested c | .completed c => c < 2 ^ 32

/-- If the steps of an exchange were published, the capture would do what it is there for: notifications are held back during
an exchange in context 0, all others reach PI.  `a` is what happened before. -/
theorem C105_capture_would_hold (dev : Nat) (hd : dev < 2 ^ 64) : ∀ (xs : List Moment) (a : List Bm.Notify.Spec.Item),
    (∀ x ∈ xs, x.Right dev ∧ x.InScope ∧ SwapFits x.item) →
    ∃ (ess dss : List (List PiEvent)), captureAll (swapping a) (xs.flatMap fun x => (announced dev x.item).map (x.env, ·)) = some ess ∧
      ess.flatten = dss.flatten ∧ dss.length = xs.length ∧
      ∀ i x es, xs[i]? = some x → dss[i]? = some es →
        if swapping (a ++ (xs.take i).map Moment.item) then es = [] else x.Told dev es
  | [], a, _ => ⟨[], [], rfl, rfl, rfl, by simp⟩
  | x :: xs, a, h => by
    obtain ⟨ess, dss, i1, i2, i3, i4⟩ := C105_capture_would_hold dev hd xs (a ++ [x.item])
      fun y hy => h y (List.mem_cons_of_mem _ hy)
    obtain ⟨h1, h2, h3⟩ := h x (by simp)
    have tail : ∀ es0, (if swapping a then es0 = [] else x.Told dev es0) → ∀ i y es, (x :: xs)[i]? = some y →
        (es0 :: dss)[i]? = some es →
        if swapping (a ++ ((x :: xs).take i).map Moment.item) then es = [] else y.Told dev es := by
      intro es0 h0 i y es hy hes
      cases i with
      | zero =>
        simp only [List.getElem?_cons_zero, Option.some.injEq] at hy hes
        subst hy; subst hes
        simpa using h0
      | succ i =>
        have := i4 i y es hy hes
        rwa [List.append_assoc] at this
    rw [swapping_snoc] at i1
    have mk : ∀ {m : Bytes}, announced dev x.item = [m] →
        capture x.env (swapping a) m = some (swapNext (swapping a) x.item, []) → (∀ e, x.item ≠ Spec.Item.event e) →
        ∃ (ess dss : List (List PiEvent)), captureAll (swapping a) ((x :: xs).flatMap fun x => (announced dev x.item).map (x.env, ·)) = some ess ∧
          ess.flatten = dss.flatten ∧ dss.length = (x :: xs).length ∧
          ∀ i y es, (x :: xs)[i]? = some y → dss[i]? = some es →
            if swapping (a ++ ((x :: xs).take i).map Moment.item) then es = [] else y.Told dev es := by
      intro m hm hc hne
      refine ⟨[] :: ess, [] :: dss, ?_, by rw [List.flatten_cons, List.flatten_cons, i2], by simp [i3], tail [] ?_⟩
      · rw [List.flatMap_cons, hm]
        exact capture_one hc i1
      · split
        · rfl
        · cases he : x.item with
          | event e => exact absurd he (hne e)
          | loaded c => rw [Moment.Told, he]
          | requested c => rw [Moment.Told, he]
          | completed c => rw [Moment.Told, he]
    have i32' : ∀ n : Int, 0 ≤ n → n < 4 → I32 n := fun n a b => ⟨by omega, by omega⟩
    cases he : x.item with
    | event e =>
      rw [he] at i1
      replace i1 : captureAll (swapping a) _ = some ess := i1
      cases hs : swapping a with
      | false =>
        rw [hs] at i1
        obtain ⟨es, k1, k2⟩ := capture_event hd he h1 h2
        obtain ⟨r', k3, k4⟩ := k1 i1
        refine ⟨r', es :: dss, ?_, by rw [k4, i2, List.flatten_cons], by simp [i3], tail es ?_⟩
        · rw [List.flatMap_cons, he]; exact k3
        · rw [hs, Moment.Told, he]; exact k2
      | true =>
        rw [hs] at i1
        have hold : ∀ l : List Bytes, (∀ m ∈ l, m.take 4 ≠ swp) → ∀ {c : List (Env × Bytes)} {r}, captureAll true c = some r →
            ∃ r', captureAll true (l.map (x.env, ·) ++ c) = some r' ∧ r'.flatten = r.flatten := by
          intro l
          induction l with
          | nil => intro _ c r hr; exact ⟨r, hr, rfl⟩
          | cons m l ih =>
            intro hl c r hr
            obtain ⟨r', k1, k2⟩ := ih (fun z hz => hl z (by simp [hz])) hr
            exact ⟨[] :: r', capture_one (capture_held x.env (hl m (by simp))) k1, by rw [List.flatten_cons, k2]; rfl⟩
        obtain ⟨r', k3, k4⟩ := hold _ (sent_topic (dev := dev) e) i1
        refine ⟨r', [] :: dss, ?_, by rw [k4, i2]; rfl, by simp [i3], tail [] (by rw [hs]; rfl)⟩
        rw [List.flatMap_cons, he]; exact k3
    | loaded c =>
      rw [he] at h3
      refine mk (m := swapMessage dev c 0) (by rw [he]; rfl) ?_ (by simp [he])
      rw [captureSwap h3 (i32' _ (by omega) (by omega)), he]
      cases c <;> rfl
    | requested c =>
      rw [he] at h3
      refine mk (m := swapMessage dev c 1) (by rw [he]; rfl) ?_ (by simp [he])
      rw [captureSwap h3 (i32' _ (by omega) (by omega)), he]
      cases c <;> rfl
    | completed c =>
      rw [he] at h3
      refine mk (m := swapMessage dev c 2) (by rw [he]; rfl) ?_ (by simp [he])
      rw [captureSwap h3 (i32' _ (by omega) (by omega)), he]
      cases c <;> rfl

/-- The case of `C105_refuted_swap`, and one of a swap in another context, had the steps been published. -/
example : captureAll false (([.loaded 1, .event (.learn 0 5 7 [[1, 2]]), .loaded 0, .event (.learn 0 5 8 [[1, 3]]),
      .requested 0, .completed 0, .event (.learn 0 5 9 [[1, 4]])] : List Bm.Notify.Spec.Item).flatMap
        fun i => (announced 4 i).map (c105Env, ·)) =
    some [[], [.digest 4 0 20 7 1 2 [1, 2]], [], [], [], [], [.digest 4 0 20 9 1 2 [1, 4]]] := by decide +kernel

end Bm.Notify
