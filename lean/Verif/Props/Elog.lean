import Verif.Lemmas.ElogRun
import Verif.Props.Pipeline
import Verif.Props.DeparserCalls

/-!
# C101: the event log

Full statement: what the client of the event log prints is what happened in the switch: every event with its packet, its
object and the name the running program gives to it; the reports on a packet in a pipeline tell the way it took and the
entries it hit; the reports of a parser are the headers that were extracted, those of a deparser the headers that were
written and the checksums that were updated; whatever was started and came to its end is reported to have ended.

`C101_log_partial` needs numbers that fit into a signed 32-bit integer: handles of entries reach `2^31` when an entry
has been replaced 128 times (`C101_refuted_handle`).  `C101_path_partial` needs a default action in every table
(`C101_refuted_path`).  `C101_parser_partial` needs a parse without error and an initial state
(`C101_refuted_extract`, `C101_refuted_done`).  Checksums are reported whether they are updated or not
(`C101_refuted_checksum`).  Loss of messages in the transport is not modelled.
-/

namespace Bm.Elog
open Spec Pipe MT

section
variable {kind : Nat → TableKind} {R σ : Type} {meters : Nat → R}

/-- **C101.** The client shows exactly what happens, in order, with the right packets, objects and names, across changes of
the program. -/
theorem C101_log_partial {dev : Nat} (hdev : dev < 2 ^ 64) (is : List Item) {objs : Objects} (hd : Distinct objs)
    (hf : ∀ i ∈ is, i.Fits) : Log dev objs is (client objs (configs is) (is.map (sent dev))) :=
  client_log hdev is objs hd hf

/-- **C101.** The lines about one packet are its events, whatever other packets do in between. -/
theorem C101_shown_partial {dev : Nat} (hdev : dev < 2 ^ 64) (is : List Item) {objs : Objects} (hd : Distinct objs)
    (hf : ∀ i ∈ is, i.Fits) (pk : Pk) :
    (client objs (configs is) (is.map (sent dev))).filterMap (Line.about pk) = is.filterMap (Item.about pk) :=
  log_about pk (client_log hdev is objs hd hf)

/-- **C101.** For every program, after every history, the reports on a packet in a pipeline are those of the way the packet
takes (`Told`), which is the one it takes without reports; start and end of the pipeline are reported around them. -/
theorem C101_truth (ids : Ids) (sem : Sem σ) {P : Prog (KeyOf kind) σ} (hw : P.WF fun n => (kind n).spec)
    {sw0 sw : Sw kind R σ} (e0 : load meters P = some sw0) {ops : List (Pipe.Op (KeyOf kind) σ)}
    (hv : ∀ op ∈ ops, op.Valid (fun n => (kind n).spec) P) (e1 : after sem sw0 ops = some sw) {i : Nat}
    {p : PipeDecl (KeyOf kind) σ} (hp : P[i]? = some p) {id : Int} {fuel : Nat} {s : σ} {es l r sw'}
    (e : pipeline ids sem id fuel sw p.first s = some (es, l, r, sw')) :
    sw.apply sem fuel p.first s = some (l, r, sw') ∧ ∃ T es0,
      Told ids sem (fun n => (kind n).spec) P T p.first s l es0 r ∧
      ((∃ s', r = .ended s') → es = .pipeStart id :: (es0 ++ [.pipeDone id])) ∧
      ((∀ s', r ≠ .ended s') → es = .pipeStart id :: es0) := by
  obtain ⟨T0, h0, -⟩ := rel_load hw e0
  obtain ⟨T, h, -⟩ := after_rel sem ops h0 hv e1
  rw [pipeline] at e
  cases h1 : loop ids sem fuel sw p.first s with
  | none => rw [h1] at e; cases e
  | some x =>
    obtain ⟨es0, l0, r0, sw2⟩ := x
    rw [h1] at e
    cases e
    refine ⟨?_, T, es0, (loop_told ids sem fuel sw p.first s h (h.first p (List.mem_of_getElem? hp)) h1).2, ?_, ?_⟩
    · rw [← loop_erase ids, h1]; rfl
    · rintro ⟨s', rfl⟩
      rfl
    · intro hr
      cases r with
      | ended s' => exact absurd rfl (hr s')
      | _ => simp

/-- **C101.** If all tables declare a default action, a reader who knows the program only finds, from the reports alone,
the nodes the packet passed, and no others. -/
theorem C101_path_partial (ids : Ids) (sem : Sem σ) {P : Prog (KeyOf kind) σ} (hw : P.WF fun n => (kind n).spec)
    (hdef : Prog.Defaults P) {sw0 sw : Sw kind R σ} (e0 : load meters P = some sw0) {ops : List (Pipe.Op (KeyOf kind) σ)}
    (hv : ∀ op ∈ ops, op.Valid (fun n => (kind n).spec) P) (e1 : after sem sw0 ops = some sw) {i : Nat}
    {p : PipeDecl (KeyOf kind) σ} (hp : P[i]? = some p) {id : Int} {fuel : Nat} {s s' : σ} {es l sw'}
    (e : pipeline ids sem id fuel sw p.first s = some (es, l, .ended s', sw')) :
    ∃ es0, es = .pipeStart id :: (es0 ++ [.pipeDone id]) ∧ ∀ l', Reads ids P p.first es0 l' ↔ l' = l := by
  obtain ⟨T0, h0, hs0⟩ := rel_load hw e0
  obtain ⟨T, h, hd⟩ := after_rel sem ops h0 hv e1
  rw [pipeline] at e
  cases h1 : loop ids sem fuel sw p.first s with
  | none => rw [h1] at e; cases e
  | some x =>
    obtain ⟨es0, l0, r0, sw2⟩ := x
    rw [h1] at e
    cases e
    refine ⟨es0, rfl, ?_⟩
    have hr := told_reads (hd hdef (start_defaults hdef hs0))
      (loop_told ids sem fuel sw p.first s h (h.first p (List.mem_of_getElem? hp)) h1).2
    intro l'
    constructor
    · intro k
      exact (reads_unique ids h hr k).symm
    · rintro rfl
      exact hr

end

/-- **C101.** Reports of a parser: if the parse ends without error, exactly the headers that are extracted, in order,
between start and end.  After an error at most one more, the last. -/
theorem C101_parser_partial {rz : Bool} {states : List Parse.PState} {s : Nat} {id : Int} {data rest : Bytes}
    {trunc fuel : Nat} {phv : Phv} {es : List Ev} {st : Parse.St} {err : Option Parse.Err}
    (e : parser rz states (some s) id data trunc fuel phv = some (es, some ((st, err), rest))) :
    Parse.parse rz states (some s) data trunc fuel phv = some (some ((st, err), rest)) ∧
    ∃ extra : List Nat, es = .parserStart id :: (told (st.trace ++ extra) ++ [.parserDone id]) ∧ extra.length ≤ 1 ∧
      (err = none → extra = []) := by
  simp only [parser, Option.bind_eq_bind] at e
  cases h : parseLoop rz states ⟨data, min data.length trunc⟩ fuel (some s) ⟨phv, 0, []⟩ with
  | none => rw [h] at e; cases e
  | some x =>
    obtain ⟨es0, r⟩ := x
    rw [h] at e
    cases r with
    | none => cases e
    | some y =>
      obtain ⟨st1, e1⟩ := y
      simp only [Option.bind_some] at e
      split at e
      · rename_i hpos
        cases e
        constructor
        · rw [Parse.parse, ← parseLoop_erase, h]
          simp only [Option.bind_eq_bind, Option.map_some, Option.bind_some]
          rw [if_pos hpos]
          rfl
        · obtain ⟨hs, ex, a1, a2, a3, a4⟩ := parseLoop_says fuel (some s) h
          refine ⟨ex, ?_, a3, a4⟩
          have : st.trace = hs := a2
          rw [a1, this]
          rfl
      · cases e

/-- **C101.** Reports of a deparser: every checksum; then exactly the headers that are valid after the method calls, in
order, whose bits are what is written in front of the payload. -/
theorem C101_deparser {id : Int} {cs : List Sum} {calls : Phv → Option Phv} {order : List Nat} {p p' : Phv}
    {room payload out : Bytes} {es : List Ev} (e : deparser id cs calls order p room payload = some (es, p', out)) :
    (∃ q n, updateSums cs p = some (cs.map (fun c => .checksum c.id), q) ∧ calls q = some p' ∧
      Parse.headersSize q order = some n ∧
      Parse.emit p' order (room.drop (room.length - n) ++ payload) = some out) ∧
    es = .deparserStart id :: (cs.map fun c => .checksum c.id) ++
      (((order.filter fun h => (p'.headers[h]?).any (·.isValid)).map fun (h : Nat) => .emit h) ++ [.deparserDone id]) := by
  simp only [deparser, Option.bind_eq_bind] at e
  cases h1 : updateSums cs p with
  | none => rw [h1] at e; cases e
  | some x =>
    obtain ⟨es1, q⟩ := x
    rw [h1, Option.bind_some] at e
    have he := sums_events cs h1
    subst he
    dsimp only at e
    cases h2 : Parse.headersSize q order with
    | none => rw [h2] at e; cases e
    | some n =>
      rw [h2, Option.bind_some] at e
      split at e
      · cases h3 : calls q with
        | none => rw [h3] at e; cases e
        | some q' =>
          rw [h3, Option.bind_some] at e
          cases h4 : emitEvents q' order (room.drop (room.length - n) ++ payload) with
          | none => rw [h4] at e; cases e
          | some y =>
            obtain ⟨es2, o⟩ := y
            rw [h4] at e
            cases e
            refine ⟨⟨q, n, rfl, h3, h2, ?_⟩, ?_⟩
            · rw [← emitEvents_erase, h4]; rfl
            · rw [emit_events _ _ _ h4]
      · cases e

end Bm.Elog

/-! ## Concrete cases -/

namespace Bm.Elog.Ex
open Spec Pipe MT Pipe.Ex

def ids : Ids := ⟨fun n => n, fun n => n⟩

/-- The program of `Props/Pipeline`, with a default action. -/
def d1 : TableDecl Bytes := { d0 with dflt := some ⟨aExit, [], false, false⟩ }
def prog1 : Prog (KeyOf kind) Pkt :=
  [{ nodes := [⟨0, .table (tab d1)⟩, ⟨1, .cond (fun p => some (decide (p.out > 5))) (some (some 2)) (some none)⟩,
      ⟨2, .call aInc none⟩], first := some 0 }]

/-- Loading, a history, and the reports on a packet. -/
def reports (P : Prog (KeyOf kind) Pkt) (ops : List (Pipe.Op (KeyOf kind) Pkt)) (s : Pkt) : Option (List Ev × List Nat) := do
  let sw ← load (fun _ => ()) P
  let sw ← after sem sw ops
  let (es, l, _, _) ← pipeline ids sem 7 9 sw (some 0) s
  return (es, l)

/-- A hit, then a condition, then a call; and a miss. -/
example : reports prog1 [.table 0 (.add (some [7]) aSet [9] 0)] ⟨7, 0, false⟩ =
    some ([.pipeStart 7, .hit 0 0, .action 1, .cond 1 true, .action 2, .pipeDone 7], [0, 1, 2]) := by decide +kernel
example : reports prog1 [] ⟨7, 0, false⟩ = some ([.pipeStart 7, .miss 0, .action 3, .pipeDone 7], [0]) := by
  decide +kernel

/-- The hypotheses are met. -/
theorem has_prog1 {n : Nat} {d : NodeDecl (KeyOf kind n) Pkt} (h : Prog.Has prog1 n d) :
    (n = 0 ∧ d = .table (tab d1)) ∨ (n = 1 ∧ ∃ ev, d = .cond ev (some (some 2)) (some none)) ∨
    (n = 2 ∧ d = .call aInc none) := by
  obtain ⟨p, hp, hd⟩ := h
  simp only [prog1, List.mem_cons, List.not_mem_nil, or_false] at hp
  subst hp
  simp only [List.mem_cons, List.not_mem_nil, or_false] at hd
  rcases hd with hd | hd | hd <;> cases hd
  · exact .inl ⟨rfl, rfl⟩
  · exact .inr (.inl ⟨rfl, _, rfl⟩)
  · exact .inr (.inr ⟨rfl, rfl⟩)

example : Prog.Defaults prog1 := by
  intro n t h
  rcases has_prog1 h with ⟨rfl, h⟩ | ⟨rfl, _, h⟩ | ⟨rfl, h⟩ <;> cases h
  rfl

example : Prog.WF (fun n => (kind n).spec) prog1 := by
  intro n t h
  rcases has_prog1 h with ⟨rfl, h⟩ | ⟨rfl, _, h⟩ | ⟨rfl, h⟩ <;> cases h
  exact ⟨⟨by decide, by intro l h; simp [tab, d1, d0] at h⟩, by decide, fun s => rfl⟩

/-- Two packets, a new program in between. -/
def exItems : List Item :=
  [.event ⟨1, 0, 0, 5, 0⟩ (.packetIn 3), .event ⟨1, 0, 0, 5, 0⟩ (.hit 2 7), .event ⟨1, 0, 0, 5, 0⟩ (.action 4),
   .change [((.table, 2), "t'")], .event ⟨1, 0, 0, 6, 2⟩ (.miss 2), .event ⟨1, 0, 0, 6, 2⟩ (.cond 9 true)]

example : client [((.table, 2), "t"), ((.action, 4), "a")] (configs exItems) (exItems.map (sent 1)) =
    [.event ⟨1, 0, 0, 5, 0⟩ (.packetIn 3) none, .event ⟨1, 0, 0, 5, 0⟩ (.hit 2 7) (some "t"),
     .event ⟨1, 0, 0, 5, 0⟩ (.action 4) (some "a"), .change 1, .event ⟨1, 0, 0, 6, 2⟩ (.miss 2) (some "t'"),
     .event ⟨1, 0, 0, 6, 2⟩ (.cond 9 true) none] := by decide +kernel

example : ∀ i ∈ exItems, i.Fits := by
  intro i hi
  simp only [exItems, List.mem_cons, List.not_mem_nil, or_false] at hi
  rcases hi with rfl | rfl | rfl | rfl | rfl | rfl
  · exact ⟨⟨by decide, by decide, by decide, by decide, by decide⟩, by decide, by decide⟩
  · exact ⟨⟨by decide, by decide, by decide, by decide, by decide⟩, ⟨by decide, by decide⟩, by decide, by decide⟩
  · exact ⟨⟨by decide, by decide, by decide, by decide, by decide⟩, by decide, by decide⟩
  · intro o s s' h1 h2
    simp only [List.mem_cons, List.not_mem_nil, or_false, Prod.mk.injEq] at h1 h2
    rw [h1.2, h2.2]
  · exact ⟨⟨by decide, by decide, by decide, by decide, by decide⟩, by decide, by decide⟩
  · exact ⟨⟨by decide, by decide, by decide, by decide, by decide⟩, by decide, by decide⟩

/-- A table without default whose miss leads to the call of an action, which is an action of the table, too. -/
def prog2 : Prog (KeyOf kind) Pkt :=
  [{ nodes := [⟨0, .table (tab { actions := [(aInc, none)], hitMiss := none, base := some (some 2), dflt := none, entries := none })⟩,
      ⟨2, .call aInc none⟩], first := some 0 }]

/-- **C101, negation.** Without default actions the reports do not tell the way: the action of the default, or that of the
next node. -/
theorem C101_refuted_path : reports prog2 [] ⟨7, 0, false⟩ =
      some ([.pipeStart 7, .miss 0, .action 2, .pipeDone 7], [0, 2]) ∧
    reports prog2 [.table 0 (.setDefault aInc [])] ⟨7, 0, false⟩ =
      some ([.pipeStart 7, .miss 0, .action 2, .pipeDone 7], [0]) := by decide +kernel

/-- An entry is added and removed `k` times. -/
def churn : Nat → List (Pipe.Op (KeyOf kind) Pkt)
  | 0 => []
  | k + 1 => churn k ++ [.table 0 (.add (some [7]) aSet [9] 0), .table 0 (.delete (k * 2 ^ 24))]

def pk : Pk := ⟨1, 0, 0, 5, 0⟩

/-- **C101, negation.** The handle of an entry that has been replaced 128 times is shown as a negative number. -/
theorem C101_refuted_handle : reports prog1 (churn 128 ++ [.table 0 (.add (some [7]) aExit [] 0)]) ⟨7, 0, false⟩ =
      some ([.pipeStart 7, .hit 0 (2 ^ 31), .action 3, .pipeDone 7], [0]) ∧
    receive (message pk (.hit 0 (2 ^ 31))) = .event pk (.hit 0 (-2 ^ 31)) := by
  decide +kernel

open Parse in
/-- **C101, negation.** A header is reported that is not extracted. -/
theorem C101_refuted_extract : ∃ st, parser false exStates (some 0) 3 [9] 100 5 exPhv =
      some ([.parserStart 3, .extract 0, .parserDone 3], some ((st, some .packetTooShort), [9])) ∧ st.trace = [] ∧
      (st.phv.headers[0]?).map (·.isValid) = some false := by
  refine ⟨⟨exPhv, 0, []⟩, ?_, ?_, ?_⟩ <;> decide +kernel

open Parse in
/-- Two headers, and a third with a variable length. -/
example : (parser false exStates (some 0) 3 [1, 2, 3, 4, 5, 6] 100 5 exPhv).map Prod.fst =
    some [.parserStart 3, .extract 0, .extract 1, .extract 3, .parserDone 3] := by decide +kernel

open Parse in
/-- **C101, negation.** A parser without states is reported to start, and never to end. -/
theorem C101_refuted_done : (parser false [] none 3 [1, 2] 100 5 exPhv).map Prod.fst = some [.parserStart 3] := by
  decide +kernel

open Parse in
/-- A deparser of two headers, the first of which is valid. -/
example : ((exPhv.markValid 0).bind fun p => deparser 4 [⟨8, fun _ => some true, some⟩] some [0, 1] p [0, 0] [5]).map
    (fun r => (r.1, r.2.2)) = some ([.deparserStart 4, .checksum 8, .emit 0, .deparserDone 4], [0, 0, 5]) := by
  decide +kernel

open Parse in
/-- **C101, negation.** A checksum is reported to be updated though its condition is not met and nothing is changed. -/
theorem C101_refuted_checksum (upd : Phv → Option Phv) : updateSums [⟨8, fun _ => some false, upd⟩] exPhv =
    some ([.checksum 8], exPhv) := rfl

end Bm.Elog.Ex
