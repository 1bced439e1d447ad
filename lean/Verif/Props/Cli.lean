import Verif.Lemmas.CliMeaning
import Verif.Props.Thrift

/-!
# Commands of the command line tool about tables (C100)

Lines of text of `runtime_CLI.py` and the requests they become, and what those do at the switch (C96).  Specification:
`Spec/Cli`.
-/

namespace Bm.Cli
open Bm.Spec Bm.Cli.Spec Bm.Thrift Bm.Thrift.Spec

/-- Every command that says something sensible is sent, and the request asks for what the command says: values written as
decimal, hexadecimal, octal or binary numbers, IPv4, IPv6 and MAC addresses, prefixes, masks, ranges; names in full or
by a suffix.

Missing for the full statement (C100): `table_modify` without parameters (`C100_refuted_modify`), negative numbers and
numbers wider than the field (`C100_refuted_negative`, `C100_refuted_wide`), names hidden by longer ones
(`C100_refuted_name`). -/
theorem C100_sent_partial {v6 : V6} (hv : V6.Proper v6) {cfg : Cfg} (hc : Cfg.WF cfg) (now : Nat) {cmd : String}
    {args : List Text} {T : TabD} {ask : Ask} (h : Says v6 cfg cmd args T ask) (hs : ask.Sane T)
    (hm : cmd = "table_modify" → 4 ≤ args.length) :
    ∃ call, command v6 cfg now cmd args = .ok (T.name, call) ∧ Asks T ask call :=
  command_complete hv hc now h hs hm

/-- Nothing else is sent: if there is a request, then the command says something about the table, and the request asks for
that.

Missing for the full statement: lines of `table_add` without `=>` (`C100_refuted_arrow`), negative numbers
(`C100_refuted_negative`). -/
theorem C100_only_partial {v6 : V6} (hv : V6.Proper v6) {cfg : Cfg} (hc : Cfg.WF cfg) {now : Nat} {cmd : String}
    {args : List Text} {n : String} {call : Call} (h : command v6 cfg now cmd args = .ok (n, call))
    (ha : cmd = "table_add" → arrow ∈ args.drop 2) :
    ∃ T ask, Says v6 cfg cmd args T ask ∧ n = T.name ∧ (ask.Nonneg → Asks T ask call) :=
  command_sound hv hc h ha

/-- An entry added by a command: the switch accepts it unless there is such an entry or the table is full; the entry has the
action and the data written, and applies to exactly the packets that the match fields mean.

Missing for the full statement: static masks, and prefix fields whose width is no multiple of 8 (C11). -/
theorem C100_entry_partial {v6 : V6} (hv : V6.Proper v6) {cfg : Cfg} (hc : Cfg.WF cfg) (now : Nat) {args : List Text} {T : TabD}
    {d : Decl} {fs : List Spec.Field} {A : ActD} {vs : List Int} {n : Int}
    (hS : Says v6 cfg "table_add" args T (.add fs A vs n)) (hs : (Ask.add fs A vs n).Sane T) (hl : LengthsOk T fs)
    (hag : Agrees cfg T d) (hd : Decl.WF d) (hm : ∀ f ∈ d.fs, f.smask = none ∧ (f.mtype = .lpm → 8 ∣ f.nbits)) (hk : d.fs ≠ [])
    (he : d.prog.entries = none) :
    ∃ call, command v6 cfg now "table_add" args = .ok (T.name, call) ∧ ∀ {s s' : STab} {r : Res}, Step d s call s' r →
      (∃ h e, r = .handle h ∧ s.T h = none ∧ s' = { s with T := fun h' => if h' = h then some e else s.T h' } ∧
        (A.name, e.fn) ∈ d.names ∧ e.data = vs ∧ e.key.2 = n ∧
        ∀ vals, ValuesOk d.fs vals → (AllMatch paddedWidth d.fs e.key.1 vals ↔ MeantAll d.fs fs vals)) ∨
      (s' = s ∧ (Refused (.table (.table .duplicate)) r ∨ Refused (.table (.table .full)) r)) := by
  obtain ⟨call, e, ha⟩ := command_complete hv hc now hS hs fun h => absurd h (by decide)
  exact ⟨call, e, fun st => add_effect hS hs hl hag hd hm hk he ha st⟩

/-- A file of commands, from the text to the tables of the switch: all are sent and ask for what they say, and the switch
goes through the corresponding transitions (C96). -/
theorem C100_script_partial {v6 : V6} (hv : V6.Proper v6) {cfg : Cfg} (hc : Cfg.WF cfg) {R : Type} (meters : Nat → R)
    (l : List (String × Table)) (hw : ∀ n d, (n, Table.direct d) ∈ l → Decl.WF d) {c : Ctx R} (hld : Ctx.load meters l = some c)
    {script : List (Nat × String × List Text)} {asks : List (TabD × Ask)}
    (h : List.Forall₂ (fun x a => Says v6 cfg x.2.1 x.2.2 a.1 a.2 ∧ a.2.Sane a.1 ∧
      (x.2.1 = "table_modify" → 4 ≤ x.2.2.length) ∧ a.1.key ≠ [] ∧ ∃ d, named l a.1.name = some (.direct d)) script asks) :
    ∃ calls rs c' s s', List.Forall₂ (fun x y => command v6 cfg x.1 x.2.1 x.2.2 = .ok y) script calls ∧
      List.Forall₂ (fun a y => y.1 = a.1.name ∧ Asks a.1 a.2 y.2) asks calls ∧ c.run calls = some (rs, c') ∧
      (∀ n d, named l n = some (.direct d) → Start d (s n)) ∧ Trace (named l) s calls rs s' := by
  have key : ∃ calls, List.Forall₂ (fun x y => command v6 cfg x.1 x.2.1 x.2.2 = .ok y) script calls ∧
      List.Forall₂ (fun a y => y.1 = a.1.name ∧ Asks a.1 a.2 y.2) asks calls ∧
      ∀ y ∈ calls, Considered (named l) y.1 y.2 := by
    clear hld
    induction h with
    | nil => exact ⟨[], .nil, .nil, by simp⟩
    | @cons x a xs as h1 _ ih =>
      obtain ⟨calls, e1, e2, e3⟩ := ih
      obtain ⟨g1, g2, g3, g4, d, g5⟩ := h1
      obtain ⟨call, e, ha⟩ := command_complete hv hc x.1 g1 g2 g3
      refine ⟨(a.1.name, call) :: calls, .cons e e1, .cons ⟨rfl, ha⟩ e2, ?_⟩
      intro y hy
      rcases List.mem_cons.1 hy with rfl | hy
      · simp only [Considered, g5]
        obtain ⟨T, ask⟩ := a
        cases call with
        | packet vals nb ts => cases ask <;> exact ha.elim
        | getByKey ps p =>
          cases ask with
          | find fs n =>
            intro e0
            have := ha.1.1
            rw [e0] at this
            exact g4 (List.eq_nil_of_length_eq_zero this.symm)
          | _ => exact ha.elim
        | _ => trivial
      · exact e3 y hy
  obtain ⟨calls, e1, e2, e3⟩ := key
  obtain ⟨rs, c', s, s', r1, r2, r3⟩ := C96_partial meters l hw hld calls e3
  exact ⟨calls, rs, c', s, s', e1, e2, r1, r2, r3⟩

/-! ## A case -/

/-- No IPv6 addresses. -/
def noV6 : V6 := fun _ => none

theorem noV6_proper : V6.Proper noV6 := by intro t bs h; cases h

def fwdD : ActD := ⟨"fwd", [9]⟩
def dropD : ActD := ⟨"drop", []⟩

def routesD : TabD := ⟨"in.routes", false, [(.lpm, 32)], ["fwd", "drop"]⟩

/-- A ternary table, as `acl` of C96 without the constant entry. -/
def aclDecl : Decl where
  kind := .ternary true
  fs := [{ mtype := .valid, nbits := 8 }, { mtype := .ternary, nbits := 9 }]
  size := 4
  names := [("fwd", fwd), ("drop", Thrift.drop)]
  prog := { actions := [(fwd, none), (Thrift.drop, none)], hitMiss := some (some 1, some 2), base := none, dflt := none,
            entries := none }

def aclD : TabD := ⟨"in.acl", true, [(.valid, 8), (.ternary, 9)], ["fwd", "drop"]⟩

def cfg0 : Cfg := ⟨[routesD, aclD], [fwdD, dropD]⟩

def words (l : List String) : List Text := l.map String.toList

theorem cfg0_wf : Cfg.WF cfg0 := ⟨by decide, by decide, by decide⟩

theorem aclDecl_wf : Decl.WF aclDecl := by
  refine ⟨by decide, by simp [FieldKinds, aclDecl], by decide, by decide, rfl, by decide, ?_, ?_, by decide, by decide, .nil⟩
  · intro x hx; cases hx
  · intro e he; simp [aclDecl] at he

def net0 : List (String × Table) := [("in.routes", .direct routes), ("in.acl", .direct aclDecl)]

theorem names_tab {cfg : Cfg} (hc : Cfg.WF cfg) {q : Text} {T : TabD} (h : getTab cfg q = .ok T) : NamesTab cfg q T :=
  (getTab_iff hc).1 h

theorem names_act {cfg : Cfg} (hc : Cfg.WF cfg) {T : TabD} {q : Text} {A : ActD} (h : getAct cfg T q = .ok A) : NamesAct cfg T q A :=
  (getAct_iff hc).1 h

def line1 : List Text := words ["routes", "fwd", "10.0.0.0/8", "=>", "0x1_02"]

theorem says1 : Says noV6 cfg0 "table_add" line1 routesD (.add [.lpm 0x0a000000 8] fwdD [0x102] 0) := by
  refine Says.add (q := "routes".toList) (a := "fwd".toList) (ks := words ["10.0.0.0/8"]) (ps := words ["0x1_02"]) (pr := [])
    (names_tab cfg0_wf (by decide)) (names_act cfg0_wf (by decide)) ⟨.cons ?_ .nil, by decide⟩ ⟨.cons ?_ .nil, by decide⟩
    (.none rfl)
  · refine FieldText.lpm (t := "10.0.0.0".toList) (l := "8".toList) ?_ (int10_iff.1 (by decide))
    exact Value.ipv4 (ts := words ["10", "0", "0", "0"]) (ns := [10, 0, 0, 0]) (by decide)
      (.cons ⟨int10_iff.1 (by decide), by decide⟩ (.cons ⟨int10_iff.1 (by decide), by decide⟩
        (.cons ⟨int10_iff.1 (by decide), by decide⟩ (.cons ⟨int10_iff.1 (by decide), by decide⟩ .nil))))
  · exact .num (int0_iff.1 (by decide))

theorem sane1 : (Ask.add [.lpm 0x0a000000 8] fwdD [0x102] 0).Sane routesD := by
  refine ⟨?_, ?_, by unfold Small; omega⟩
  · intro x hx
    simp only [routesD, List.zip_cons_cons, List.zip_nil_left, List.mem_singleton] at hx
    subst hx
    simp [Field.Sane, Fits, Small]
  · intro x hx
    simp only [fwdD, List.zip_cons_cons, List.zip_nil_left, List.mem_singleton] at hx
    subst hx
    simp [Fits]

def line2 : List Text := words ["acl", "drop", "1", "0b101&&&0o777", "=>", "7"]

theorem says2 : Says noV6 cfg0 "table_add" line2 aclD (.add [.valid true, .ternary 5 511] dropD [] 7) := by
  refine Says.add (q := "acl".toList) (a := "drop".toList) (ks := words ["1", "0b101&&&0o777"]) (ps := []) (pr := words ["7"])
    (names_tab cfg0_wf (by decide)) (names_act cfg0_wf (by decide)) ⟨.cons ?_ (.cons ?_ .nil), by decide⟩ ⟨.nil, by decide⟩
    (.some rfl (int10_iff.1 (by decide)))
  · exact FieldText.valid (n := 1) (int10_iff.1 (by decide))
  · exact FieldText.ternary (t := "0b101".toList) (t' := "0o777".toList) (.num (int0_iff.1 (by decide)))
      (.num (int0_iff.1 (by decide)))

def line3 : List Text := words ["in.acl", "fwd", "0", "=>", "3"]

theorem says3 : Says noV6 cfg0 "table_modify" line3 aclD (.modify 0 fwdD [3]) :=
  Says.modify' (q := "in.acl".toList) (a := "fwd".toList) (h := "0".toList) (ps := words ["3"]) (names_tab cfg0_wf (by decide))
    (names_act cfg0_wf (by decide)) (int10_iff.1 (by decide)) ⟨.cons (.num (int0_iff.1 (by decide))) .nil, by decide⟩

/-- The hypotheses of `C100_entry_partial` hold. -/
example : LengthsOk routesD [.lpm 0x0a000000 8] ∧ Agrees cfg0 routesD routes ∧ Decl.WF routes ∧
    (∀ f ∈ routes.fs, f.smask = none ∧ (f.mtype = .lpm → 8 ∣ f.nbits)) ∧ routes.fs ≠ [] ∧ routes.prog.entries = none := by
  refine ⟨?_, ⟨rfl, ?_⟩, routes_wf, ?_, by decide, rfl⟩
  · intro x hx v n h
    simp only [routesD, List.zip_cons_cons, List.zip_nil_left, List.mem_singleton] at hx
    subst hx
    cases h
    decide
  · intro A hA _
    simp only [cfg0, List.mem_cons, List.not_mem_nil, or_false] at hA
    rcases hA with rfl | rfl
    · exact ⟨fwd, by decide, rfl⟩
    · exact ⟨Thrift.drop, by decide, rfl⟩
  · intro f hf
    simp only [routes, List.mem_singleton] at hf
    subst hf
    exact ⟨rfl, fun _ => by decide⟩

/-- The hypotheses of `C100_script_partial` hold. -/
example : (∀ n d, (n, Table.direct d) ∈ net0 → Decl.WF d) ∧
    List.Forall₂ (fun (x : Nat × String × List Text) (a : TabD × Ask) => Says noV6 cfg0 x.2.1 x.2.2 a.1 a.2 ∧ a.2.Sane a.1 ∧
      (x.2.1 = "table_modify" → 4 ≤ x.2.2.length) ∧ a.1.key ≠ [] ∧ ∃ d, named net0 a.1.name = some (.direct d))
      [(0, "table_add", line1), (1, "table_add", line2), (2, "table_modify", line3)]
      [(routesD, .add [.lpm 0x0a000000 8] fwdD [0x102] 0), (aclD, .add [.valid true, .ternary 5 511] dropD [] 7),
       (aclD, .modify 0 fwdD [3])] := by
  constructor
  · intro n d h
    simp only [net0, List.mem_cons, Prod.mk.injEq, Table.direct.injEq, List.not_mem_nil, or_false] at h
    rcases h with ⟨-, rfl⟩ | ⟨-, rfl⟩
    · exact routes_wf
    · exact aclDecl_wf
  · refine .cons ⟨says1, sane1, by decide, by decide, _, rfl⟩ (.cons ⟨says2, ?_, by decide, by decide, _, rfl⟩
      (.cons ⟨says3, ?_, by decide, by decide, _, rfl⟩ .nil))
    · refine ⟨?_, ?_, by unfold Small; omega⟩
      · intro x hx
        simp only [aclD, List.zip_cons_cons, List.zip_nil_left, List.mem_cons, List.not_mem_nil, or_false] at hx
        rcases hx with rfl | rfl
        · trivial
        · simp [Field.Sane, Fits]
      · intro x hx
        simp [dropD] at hx
    · refine ⟨by unfold Small; omega, ?_⟩
      intro x hx
      simp only [fwdD, List.zip_cons_cons, List.zip_nil_left, List.mem_singleton] at hx
      subst hx
      simp [Fits]

deriving instance DecidableEq for Call

/-- What is sent. -/
example : command noV6 cfg0 4 "table_add" line1 = .ok ("in.routes", .add [.lpm [10, 0, 0, 0] 8] "fwd" [[1, 2]] 0 4) ∧
    command noV6 cfg0 4 "table_add" line2 = .ok ("in.acl", .add [.valid true, .ternary [0, 5] [1, 255]] "drop" [] 7 4) ∧
    command noV6 cfg0 4 "table_modify" line3 = .ok ("in.acl", .modify 0 "fwd" [[0, 3]]) ∧
    command noV6 cfg0 4 "table_delete" (words ["routes", "-1"]) = .ok ("in.routes", .delete (2 ^ 32 - 1)) ∧
    command noV6 cfg0 4 "table_dump_entry_from_key" (words ["acl", "0", "1&&&3", "9"]) =
      .ok ("in.acl", .getByKey [.valid false, .ternary [0, 1] [0, 3]] 9) ∧
    command noV6 cfg0 4 "table_add" (words ["routes", "fwd", "10.0.0.0", "=>", "1"]) = .err ∧
    value noV6 "aa:bb:cc:0:1:2".toList 48 = .ok [0xaa, 0xbb, 0xcc, 0, 1, 2] ∧
    parseField noV6 .range 16 "1000->0x7FFF".toList = .ok (.range [3, 232] [127, 255]) := by decide

/-! ## Refutations -/

/-- A negative number is accepted for every field and every parameter, and 0 is sent. -/
theorem C100_refuted_negative {v6 : V6} {s : Text} {w : Nat} {v : Int} (h : Signed Literal s v) (h0 : v < 0) :
    ∃ bs, parseField v6 .exact w s = .ok (.exact bs) ∧ Holds w 0 bs ∧ ¬ Holds w v bs := by
  obtain ⟨bs, e, hb⟩ := value_negative (v6 := v6) (w := w) h h0
  refine ⟨bs, by simp [parseField, e], hb, fun hn => ?_⟩
  have := hn.2
  omega

/-- The entry for −1 is the entry for 0. -/
example : command noV6 cfg0 0 "table_set_default" (words ["routes", "fwd", "-1"]) =
    command noV6 cfg0 0 "table_set_default" (words ["routes", "fwd", "0"]) ∧
    command noV6 cfg0 0 "table_set_default" (words ["routes", "fwd", "0"]) = .ok ("in.routes", .setDefault "fwd" [[0, 0]]) := by
  decide

/-- A value that is wider than the field but needs no more bytes is accepted; at the switch, the entry for 1023 in a field of
9 bits applies to packets with 511. -/
theorem C100_refuted_wide : ∃ t v p, FieldText noV6 (.exact, 9) t (.exact v) ∧ ¬ Fits 9 v ∧
    parseField noV6 .exact 9 t = .ok p ∧
    FieldMatches paddedWidth { mtype := .exact, nbits := 9 } (TParam.means p) 511 ∧
    ¬ Field.Meant 9 (.exact v) 511 := by
  refine ⟨"1023".toList, 1023, .exact [3, 255], .exact (.num (int0_iff.1 (by decide))), ?_, by decide, ?_, ?_⟩
  · intro h; exact absurd h.2 (by decide)
  · simp [FieldMatches, underMask, paramValue, TParam.means, bytesNat]
  · show ¬ ((511 : Nat) : Int) = 1023
    decide

/-- Without `=>`, the last argument of `table_add` is dropped without a message. -/
theorem C100_refuted_arrow :
    let args := words ["routes", "drop", "10.0.0.0/8", "10.1.0.0/16"]
    command noV6 cfg0 0 "table_add" args = .ok ("in.routes", .add [.lpm [10, 0, 0, 0] 8] "drop" [] 0 0) ∧
      ¬ ∃ T ask, Says noV6 cfg0 "table_add" args T ask := by
  refine ⟨by decide, ?_⟩
  rintro ⟨T, ask, h⟩
  generalize hc : "table_add" = cmd at h
  generalize ha : words ["routes", "drop", "10.0.0.0/8", "10.1.0.0/16"] = args at h
  cases h with
  | @add q a _ _ ks _ ps _ pr _ =>
    have : arrow ∈ words ["routes", "drop", "10.0.0.0/8", "10.1.0.0/16"] := by rw [ha]; simp
    exact absurd this (by decide)
  | _ => exact absurd hc (by decide)

/-- `table_modify` without parameters ends the tool, for every action that has none. -/
theorem C100_refuted_modify {v6 : V6} {cfg : Cfg} (hc : Cfg.WF cfg) (now : Nat) {q a h : Text} {T : TabD} {A : ActD} {n : Int}
    (hT : NamesTab cfg q T) (hA : NamesAct cfg T a A) (hw : A.widths = []) (hh : Dec h n) :
    Says v6 cfg "table_modify" [q, a, h] T (.modify n A []) ∧ command v6 cfg now "table_modify" [q, a, h] = .crash := by
  refine ⟨.modify hT hA hh ⟨by rw [hw]; exact .nil, by rw [hw]; rfl⟩, ?_⟩
  simp [command, modify, Out.guard, (getTab_iff hc).2 hT, (getAct_iff hc).2 hA, int10_iff.2 hh, Out.of]

/-- There is such a case. -/
example : NamesTab cfg0 "routes".toList routesD ∧ NamesAct cfg0 routesD "drop".toList dropD ∧ Dec "0".toList 0 :=
  ⟨names_tab cfg0_wf (by decide), names_act cfg0_wf (by decide), int10_iff.1 (by decide)⟩

/-- Other lines that end the tool: an octet above 255, a prefix length or a validity that is no number, no arguments but a
priority, a handle above 2^31. -/
theorem C100_refuted_crash :
    command noV6 cfg0 0 "table_add" (words ["routes", "drop", "10.0.0.300/8", "=>"]) = .crash ∧
    command noV6 cfg0 0 "table_add" (words ["routes", "drop", "10.0.0.0/x", "=>"]) = .crash ∧
    command noV6 cfg0 0 "table_add" (words ["acl", "drop", "true", "1&&&1", "=>", "1"]) = .crash ∧
    command noV6 cfg0 0 "table_add" (words ["acl", "drop", "1"]) = .crash ∧
    command noV6 cfg0 0 "table_delete" (words ["routes", "2147483648"]) = .crash := by decide

/-- A table whose full name is a suffix of another's cannot be addressed. -/
theorem C100_refuted_name {all : List String} {m n : String} (hm : m ∈ all) (hne : m ≠ n) (p : Text)
    (hs : m.toList = p ++ '.' :: n.toList) : ∀ q, ¬ Names all q n := by
  rintro q ⟨-, h1, h2⟩
  refine hne (h2 m hm ?_)
  rcases h1 with rfl | ⟨p', h⟩
  · exact .inr ⟨p, hs⟩
  · exact .inr ⟨p ++ '.' :: p', by rw [hs, h]; simp⟩

/-- There are such names. -/
example : ∀ q, ¬ Names ["t", "ingress.t"] q "t" := C100_refuted_name (m := "ingress.t") (by decide) (by decide) "ingress".toList rfl

/-- `pvs_add` and `pvs_remove` send the wrong number of bytes unless the width is 1 more than a multiple of 8; the switch
then fails an assertion. -/
theorem C100_refuted_pvs {s : Text} {w : Nat} {v : Int} (h : Signed Literal s v) (hf : v < 2 ^ w) (hw : w % 8 ≠ 1) :
    ∃ bs, pvsValue s w = .ok bs ∧ bs.length = (w + 7) / 8 + 1 ∧
      ∀ (vs : VSet.VSet) set, vs.base = ⟨w, none, none, set⟩ → vs.exec (.add bs) = none ∧ vs.exec (.remove bs) = none := by
  obtain ⟨bs, e⟩ := pvs_ok h hf
  have hl := pvs_length e
  have hl' : bs.length = (w + 7) / 8 + 1 := by omega
  refine ⟨bs, e, hl', fun vs set hb => ?_⟩
  have hst : (⟨w, none, none, set⟩ : VSet.Shadow).stored bs = none := by
    simp only [VSet.Shadow.stored, VSet.doPadding, VSet.transform, Option.bind_eq_bind, Option.bind_some]
    refine if_neg ?_
    show ¬ bs.length = (w + 7) / 8
    omega
  constructor
  · simp [VSet.VSet.exec, hb, VSet.Shadow.exec, VSet.Shadow.add, hst]
  · simp [VSet.VSet.exec, hb, VSet.Shadow.exec, VSet.Shadow.remove, hst]

/-- What `pvs_add` and `pvs_remove` send: the name as it was typed and the value in `(w + 14) / 8` bytes, which is the
right number exactly if the width is 1 more than a multiple of 8. -/
theorem C100_pvs_partial {vsets : List (String × Nat)} (hn : (vsets.map Prod.fst).Nodup) {q s : Text} {n : String} {w : Nat}
    {v : Int} (hq : Names (vsets.map Prod.fst) q n) (hw : vsets.lookup n = some w) (h : Signed Literal s v) (hf : v < 2 ^ w) :
    ∃ bs, pvsAdd vsets [q, s] = .ok (q, bs) ∧ bytesNat bs = v.toNat ∧ bs.length = (w + 14) / 8 ∧
      (bs.length = (w + 7) / 8 ↔ w % 8 = 1) := by
  obtain ⟨bs, e⟩ := pvs_ok h hf
  have hl := pvs_length e
  refine ⟨bs, ?_, pvs_value h e, hl, by omega⟩
  unfold pvsAdd
  rw [guard_pos (by rfl)]
  have h1 : (Out.of .err ((lookup (vsets.map Prod.fst) ([q, s].getD 0 [])).bind fun n => vsets.lookup n)) = .ok w := by
    show Out.of .err ((lookup (vsets.map Prod.fst) q).bind _) = _
    rw [(lookup_iff hn).2 hq, Option.bind_some, of_some hw]
  rw [out_bind_ok, h1, out_bind_ok]
  show (pvsValue s w >>= _) = _
  rw [e]
  rfl

/-- The set of a fresh value set is of this form; two bytes are sent for a set of width 8.  The name is sent as it was
typed. -/
example : (VSet.VSet.mk' 8 []).base = ⟨8, none, none, []⟩ ∧ pvsValue "5".toList 8 = .ok [0, 5] ∧
    pvsAdd [("prs.pvs", 9)] (words ["pvs", "0x1ff"]) = .ok ("pvs".toList, [1, 255]) := by decide

end Bm.Cli
