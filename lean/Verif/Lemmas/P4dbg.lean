import Verif.Lemmas.P4dbgWire
import Verif.Lemmas.P4dbgNames
import Verif.Props.Debugger

/-!
# The tool and the debugger: invariants
-/

namespace Bm.P4dbg

open Bm.Debugger.Spec (Pid Pkt Req Msg Vis attached pending inside value places watching breaksIn stopsIn chosen
  ctrField report bytes4 answer)
open Bm.P4dbg.Spec

/-! ## Histories -/

/-- What packets did. -/
def pk : List Vis → List Vis
  | [] => []
  | .pkt e :: h => .pkt e :: pk h
  | _ :: h => pk h

theorem inside_pk (p : Pid) : ∀ h, inside p (pk h) = inside p h := by
  intro h
  induction h with
  | nil => rfl
  | cons v h ih =>
    cases v with
    | pkt e => cases e <;> simp only [pk, inside, ih]
    | req n r => exact ih
    | rep n m => exact ih
    | cfg => exact ih

theorem value_pk (p : Pid) (id : Nat) : ∀ h, value p id (pk h) = value p id h := by
  intro h
  induction h with
  | nil => rfl
  | cons v h ih =>
    cases v with
    | pkt e => cases e <;> simp only [pk, value, ih]
    | req n r => exact ih
    | rep n m => exact ih
    | cfg => exact ih

theorem places_pk (p : Pid) : ∀ h, places p (pk h) = places p h := by
  intro h
  induction h with
  | nil => rfl
  | cons v h ih =>
    cases v with
    | pkt e => cases e <;> simp only [pk, places, ih]
    | req n r => exact ih
    | rep n m => exact ih
    | cfg => exact ih

/-- The packet's events fit. -/
def FitP (P : Program) (e : Pkt) : Prop :=
  e.pid.1 < 2 ^ 64 ∧ e.pid.2 < 2 ^ 64 ∧
  match e with
  | .enter _ port => -2 ^ 31 ≤ port ∧ port < 2 ^ 31
  | .leave _ => True
  | .upd _ id b => (∃ f, Named P f id) ∧ b.length ≤ 208
  | .ctr _ v => (∃ t o w, Place P t o w ∧ (v = w ∨ v = w + 2 ^ 31)) ∧ v < 2 ^ 32

/-- What packets did, fits. -/
structure Env (P : Program) (h : List Vis) : Prop where
  ev : ∀ e, Vis.pkt e ∈ h → FitP P e
  depth : ∀ p, (places p h).length ≤ 54
  known : ∀ p, ∀ v ∈ places p h, ∃ t o, Place P t o v

theorem Env.same {P : Program} {h : List Vis} {v : Vis} (hE : Env P h) (hv : ∀ e, v ≠ .pkt e) : Env P (v :: h) := by
  have hp : ∀ p, places p (v :: h) = places p h := by
    intro p
    cases v with
    | pkt e => exact absurd rfl (hv e)
    | req n r => rfl
    | rep n m => rfl
    | cfg => rfl
  refine ⟨?_, ?_, ?_⟩
  · intro e he
    rcases List.mem_cons.mp he with h1 | h1
    · exact absurd h1.symm (hv e)
    · exact hE.ev e h1
  · intro p; rw [hp]; exact hE.depth p
  · intro p; rw [hp]; exact hE.known p

theorem Env.pkt {P : Program} (ok : P.Ok) {h : List Vis} {e : Pkt} (hE : Env P h) (hf : FitP P e)
    (hd : ∀ p v, e = .ctr p v → (places p h).length < 54) : Env P (.pkt e :: h) := by
  refine ⟨?_, ?_, ?_⟩
  · intro e' he
    rcases List.mem_cons.mp he with h1 | h1
    · cases h1; exact hf
    · exact hE.ev e' h1
  · intro p
    have h0 := hE.depth p
    cases e with
    | enter q port => simp only [places]; split <;> simp_all
    | leave q => exact h0
    | upd q i b => exact h0
    | ctr q v =>
      have h1 := hd q v rfl
      simp only [places]
      split
      · rename_i hq; subst hq
        split
        · simp only [List.length_dropLast]; omega
        · simp only [List.length_append, List.length_cons, List.length_nil]; omega
      · exact h0
  · intro p w hw
    have h0 := hE.known p
    cases e with
    | enter q port =>
      simp only [places] at hw
      split at hw
      · cases hw
      · exact h0 w hw
    | leave q => exact h0 w hw
    | upd q i b => exact h0 w hw
    | ctr q v =>
      simp only [places] at hw
      split at hw
      · rename_i hq
        split at hw
        · exact h0 w ((List.dropLast_sublist _).subset hw)
        · rename_i hv
          rcases List.mem_append.mp hw with h1 | h1
          · exact h0 w h1
          · rw [List.mem_singleton] at h1
            subst h1
            obtain ⟨t, o, x, hx, hx'⟩ := hf.2.2.1
            rcases hx' with rfl | rfl
            · exact ⟨t, o, hx⟩
            · omega
      · exact h0 w hw

/-! ## The invariant -/

/-- The tool and what the user did. -/
structure TU (P : Program) (t : Tool) (u : List UVis) : Prop where
  wps : ∀ id, id ∈ t.wps ↔ Watched P id u
  bps : ∀ v, v ∈ t.bps ↔ BreakAt P v u
  sk : ∀ p, skipped t p = true ↔ Skipped p u
  cur : t.current = current u
  cb : ∀ p, t.current = some p → p.1 < 2 ^ 64 ∧ p.2 < 2 ^ 64
  fl : t.wantPrompt = true ↔ Stale u
  br : BreaksIn u → t.brk = some true
  st : StopsIn u → t.stp = some true
  att : Fresh u → t.attached = true

/-- The switch and what the user did. -/
structure HU (P : Program) (h : List Vis) (u : List UVis) : Prop where
  w1 : ∀ id, id ≠ ctrField → (watching id h = true ↔ Watched P id u)
  w2 : ∀ v, BreakAt P v u → watching ctrField h = true
  b1 : breaksIn h = true ↔ BreaksIn u
  s1 : stopsIn h = true ↔ StopsIn u
  ch : chosen h = []

/-- The tool was started and has not done anything. -/
def AttU : List UVis → Prop
  | .up :: _ => True
  | .pkt _ :: u => AttU u
  | _ => False

/-- Without interrupts at the end. -/
def strip : List UVis → List UVis
  | .intr :: u => strip u
  | u => u

/-- The request that belongs to a command. -/
def Asked (P : Program) (u : List UVis) : Cmd → Req → Prop
  | .reset, r => r = .reset
  | .setWp f, r => ∃ id, Named P f id ∧ r = .watch id
  | .unsetWp f, r => ∃ id, Named P f id ∧ Watched P id u ∧ r = .unwatch id
  | .brk t o, r => (∃ v, Place P t o v) ∧ (∀ v, ¬ BreakAt P v u) ∧ r = .watch ctrField
  | .print p f, r => ∃ q id, subject u p = some q ∧ Named P f id ∧ r = .getValue q id ∧ q.1 < 2 ^ 64 ∧ q.2 < 2 ^ 64
  | .bt p, r => ∃ q, subject u p = some q ∧ r = .getBacktrace q ∧ q.1 < 2 ^ 64 ∧ q.2 < 2 ^ 64
  | .breakIn, r => r = .breakIn
  | .removeIn, r => r = .removeIn ∧ BreaksIn u
  | .stopIn, r => r = .stopIn
  | .resumeIn, r => r = .resumeIn ∧ StopsIn u
  | _, _ => False

/-- The request of `continue` and `next`. -/
def goReq : Cmd → Req
  | .cont => .cont
  | _ => .next

/-- The request `r` of the command `c` is on its way. -/
def Before (P : Program) (t : Tool) (c : Cmd) (r : Req) (h : List Vis) (u : List UVis) : Prop :=
  (c = .attach ∧ r = .attach ∧ attached h = false ∧ AttU u ∧ t = { reqId := 1 }) ∨
  (c = .eof ∧ r = .detach ∧ attached h = true) ∨
  (goes c = true ∧ r = goReq c ∧ attached h = true ∧ TU P t u ∧ HU P h u ∧ ∀ e, ¬ Stop P u e) ∨
  (goes c = false ∧ c ≠ .attach ∧ c ≠ .eof ∧ attached h = true ∧
    ∃ u0, u = .cmd c :: u0 ∧ TU P t u0 ∧ HU P h u0 ∧ Asked P u0 c r)

/-- The switch has the request; `n`: its number, `h0`: what was before. -/
def After (P : Program) (t : Tool) (c : Cmd) (r : Req) (n : Nat) (h0 h : List Vis) (u : List UVis) : Prop :=
  (c = .attach ∧ r = .attach ∧ h = .req n r :: h0 ∧ attached h0 = false ∧ AttU u ∧ t = { reqId := 1 }) ∨
  (c = .eof ∧ r = .detach ∧ attached h = false) ∨
  (goes c = true ∧ r = goReq c ∧ attached h = true ∧ TU P t u ∧ HU P h u ∧
    ((∃ e h1 u1, h = .pkt e :: h1 ∧ strip u = .pkt e :: u1) ∨ ((∀ e h1, h ≠ .pkt e :: h1) ∧ ∀ e, ¬ Stop P u e))) ∨
  (goes c = false ∧ c ≠ .attach ∧ c ≠ .eof ∧ h = .req n r :: h0 ∧ attached h0 = true ∧
    ∃ u0, u = .cmd c :: u0 ∧ TU P t u0 ∧ HU P h0 u0 ∧ Asked P u0 c r)

/-- Where the tool and the switch are. -/
def MI (P : Program) (s : Debugger.State) (h : List Vis) (u : List UVis) : Mode → Prop
  | .off => on u = false ∧ attached h = false ∧ s.phase = .idle
  | .prompt t => on u = true ∧ pend u = none ∧ attached h = true ∧ s.phase = .idle ∧ t.reqId ≤ u.length ∧
      TU P t u ∧ HU P h u
  | .sending t c b => on u = true ∧ pend u = some c ∧ s.phase = .idle ∧ t.reqId ≤ u.length ∧
      ∃ n r, decode b = some (n, r) ∧ n < 2 ^ 64 ∧ Before P t c r h u
  | .busy t c b => on u = true ∧ pend u = some c ∧ t.reqId ≤ u.length ∧
      ∃ n r, decode b = some (n, r) ∧ n < 2 ^ 64 ∧
        ((s.phase = .got r ∧ s.reqId = n ∧ Before P t c r h u) ∨
         (s.phase = .waiting ∧ ∃ h0, pending h = some (n, r, h0) ∧ After P t c r n h0 h u))
  | .dead => False

/-- All of it. -/
structure SI (P : Program) (s : Debugger.State) (m : Mode) (h : List Vis) (u : List UVis) : Prop where
  run : Debugger.Run s h
  same : pk h = pkts u
  env : Env P h
  mi : MI P s h u m
  good : Good P Stale u

/-! ## What does not change -/

theorem TU.reqId {P : Program} {t : Tool} {u : List UVis} (h : TU P t u) (k : Nat) : TU P { t with reqId := k } u :=
  ⟨h.wps, h.bps, h.sk, h.cur, h.cb, h.fl, h.br, h.st, h.att⟩

theorem TU.pkt {P : Program} {t : Tool} {u : List UVis} (h : TU P t u) (e : Pkt) : TU P t (.pkt e :: u) :=
  ⟨h.wps, h.bps, h.sk, h.cur, h.cb, h.fl, h.br, h.st, h.att⟩

theorem TU.intr {P : Program} {t : Tool} {u : List UVis} (h : TU P t u) : TU P { t with wantPrompt := true } (.intr :: u) :=
  ⟨h.wps, h.bps, h.sk, h.cur, h.cb, by simp [Stale], h.br, h.st, h.att⟩

/-- Neither an event nor the end of an interrupted command. -/
def calm : Out → Bool
  | .event _ _ => false
  | .stopped => false
  | _ => true

theorem TU.out {P : Program} {t : Tool} {u : List UVis} (h : TU P t u) {o : Out} (ho : calm o = true) :
    TU P t (.out o :: u) := by
  cases o <;> first | (cases ho; done) | exact ⟨h.wps, h.bps, h.sk, h.cur, h.cb, h.fl, h.br, h.st, h.att⟩

theorem TU.event {P : Program} {t : Tool} {u : List UVis} (h : TU P t u) {p : Pid} (hp : p.1 < 2 ^ 64 ∧ p.2 < 2 ^ 64)
    (s : Shown) : TU P { t with current := some p } (.out (.event p s) :: u) :=
  ⟨h.wps, h.bps, h.sk, rfl, fun q hq => by cases hq; exact hp, h.fl, h.br, h.st, h.att⟩

theorem TU.stopped {P : Program} {t : Tool} {u : List UVis} (h : TU P t u) :
    TU P { t with wantPrompt := false } (.out .stopped :: u) :=
  ⟨h.wps, h.bps, h.sk, h.cur, h.cb, by simp [Stale], h.br, h.st, h.att⟩

/-- Commands that change nothing. -/
def still : Cmd → Bool
  | .reset => false
  | .setWp _ => false
  | .unsetWp _ => false
  | .brk _ _ => false
  | .delete _ _ => false
  | .breakIn => false
  | .removeIn => false
  | .stopIn => false
  | .resumeIn => false
  | .skip => false
  | .skipAll => false
  | _ => true

theorem TU.cmd {P : Program} {t : Tool} {u : List UVis} (h : TU P t u) {c : Cmd} (hc : still c = true) :
    TU P t (.cmd c :: u) := by
  cases c <;> first | (cases hc; done) | exact ⟨h.wps, h.bps, h.sk, h.cur, h.cb, h.fl, h.br, h.st, h.att⟩

theorem HU.out {P : Program} {h : List Vis} {u : List UVis} (i : HU P h u) (o : Out) : HU P h (.out o :: u) :=
  ⟨i.w1, i.w2, i.b1, i.s1, i.ch⟩

theorem HU.intr {P : Program} {h : List Vis} {u : List UVis} (i : HU P h u) : HU P h (.intr :: u) :=
  ⟨i.w1, i.w2, i.b1, i.s1, i.ch⟩

theorem HU.pkt {P : Program} {h : List Vis} {u : List UVis} (i : HU P h u) (e : Pkt) : HU P (.pkt e :: h) (.pkt e :: u) :=
  ⟨i.w1, i.w2, i.b1, i.s1, i.ch⟩

theorem HU.rep {P : Program} {h : List Vis} {u : List UVis} (i : HU P h u) (n : Nat) (m : Msg) : HU P (.rep n m :: h) u :=
  ⟨i.w1, i.w2, i.b1, i.s1, i.ch⟩

theorem HU.cmd {P : Program} {h : List Vis} {u : List UVis} (i : HU P h u) {c : Cmd} (hc : still c = true) :
    HU P h (.cmd c :: u) := by
  cases c <;> first | (cases hc; done) | exact ⟨i.w1, i.w2, i.b1, i.s1, i.ch⟩

theorem strip_fn (P : Program) (u : List UVis) :
    (∀ id, Watched P id (strip u) ↔ Watched P id u) ∧ (∀ v, BreakAt P v (strip u) ↔ BreakAt P v u) ∧
    (∀ p, Skipped p (strip u) ↔ Skipped p u) ∧ (BreaksIn (strip u) ↔ BreaksIn u) ∧ pend (strip u) = pend u ∧
    (∀ e, Stop P (strip u) e ↔ Stop P u e) ∧ pkts (strip u) = pkts u := by
  induction u with
  | nil => exact ⟨fun _ => Iff.rfl, fun _ => Iff.rfl, fun _ => Iff.rfl, Iff.rfl, rfl, fun _ => Iff.rfl, rfl⟩
  | cons v u ih =>
    cases v with
    | intr => exact ih
    | up => exact ⟨fun _ => Iff.rfl, fun _ => Iff.rfl, fun _ => Iff.rfl, Iff.rfl, rfl, fun _ => Iff.rfl, rfl⟩
    | cmd c => exact ⟨fun _ => Iff.rfl, fun _ => Iff.rfl, fun _ => Iff.rfl, Iff.rfl, rfl, fun _ => Iff.rfl, rfl⟩
    | out o => exact ⟨fun _ => Iff.rfl, fun _ => Iff.rfl, fun _ => Iff.rfl, Iff.rfl, rfl, fun _ => Iff.rfl, rfl⟩
    | pkt e => exact ⟨fun _ => Iff.rfl, fun _ => Iff.rfl, fun _ => Iff.rfl, Iff.rfl, rfl, fun _ => Iff.rfl, rfl⟩

/-- What the user wants does not change with packets and interrupts. -/
theorem wants_strip {P : Program} {u u1 : List UVis} {e : Pkt} (hs : strip u = .pkt e :: u1) (e' : Pkt) :
    Wants P u1 e' ↔ Wants P u e' := by
  obtain ⟨h1, h2, h3, h4, h5, -, -⟩ := strip_fn P u
  rw [hs] at h1 h2 h3 h4 h5
  have h1' : ∀ id, Watched P id u1 ↔ Watched P id u := h1
  have h2' : ∀ v, BreakAt P v u1 ↔ BreakAt P v u := h2
  have h3' : ∀ p, Skipped p u1 ↔ Skipped p u := h3
  have h4' : BreaksIn u1 ↔ BreaksIn u := h4
  have h5' : pend u1 = pend u := h5
  cases e' <;> simp only [Wants, h1', h2', h3', h4', h5']

theorem stop_strip {P : Program} {u u1 : List UVis} {e : Pkt} (hs : strip u = .pkt e :: u1) (e' : Pkt) :
    Stop P u e' ↔ e = e' ∧ Wants P u e := by
  have h6 := (strip_fn P u).2.2.2.2.2.1 e'
  rw [← h6, hs]
  simp only [Stop]
  rw [wants_strip hs]

end Bm.P4dbg
