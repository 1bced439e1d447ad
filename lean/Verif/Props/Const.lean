import Verif.Lemmas.Const

/-!
# C114: constants of errors and enums

Full statement: a program whose errors and enums have the documented form (names and values unique, values from 0 to below 2^31 - 1)
is loaded, any other is refused; then every declared error has its value, every core error has a value of its own, names and values
determine each other, and after parsing the packet has the value of the error raised, `NoError` if none was; the constants of enums
have the values declared.

Missing, because the code does not do it: errors with values close to the end of the range overflow (`C114_refuted_last`), values out
of the range are accepted, overflow or throw (`C114_refuted_range`), a computed error which the program does not declare ends the
switch (`C114_refuted_verify`), constants of two enums whose full names are the same are refused (`C114_refuted_enums`).
-/

namespace Bm.Const

open Spec
open Bm.Parse (Err Op PState)

/-- Errors: loading, meaning, both directions, the check of `verify` and the error of every packet. -/
theorem C114_partial {es : List (String × Int)} (hu : Unique es)
    (hr : ∀ p ∈ es, 0 ≤ p.2 ∧ p.2 + (undeclared es).length < 2 ^ 31 - 1) :
    ∃ m val, loadErrors es = .ok m ∧ Meaning es val ∧
      (∀ n, m.fromName n = val n) ∧ (∀ v n, m.toName v = some n ↔ val n = some v) ∧
      -- numbers in `verify` are errors of the program
      (∀ cond v op, isInt v = true →
        (buildVerify m cond (.const v) = .ok op ↔ (∃ n, val n = some v) ∧ op = .verify cond (fun _ => some v))) ∧
      (∀ cond v, isInt v = true → (buildVerify m cond (.const v) = .refused ↔ ¬ ∃ n, val n = some v)) ∧
      -- packets
      (∀ rz states init data trunc fuel phv, (∀ s ∈ states, ∀ op ∈ s.ops, Raises val op) →
        match Parse.parse rz states init data trunc fuel phv with
        | none => parseCode m rz states init data trunc fuel phv = none
        | some none => parseCode m rz states init data trunc fuel phv = some none
        | some (some ((_, e), _)) =>
          ∃ v n, final val e = some v ∧ val n = some v ∧ parseCode m rz states init data trunc fuel phv = some (some v)) := by
  obtain ⟨m, h1, hs, hm⟩ := loadErrors_spec hu hr
  have hval : ∀ v, m.hasValue v = true ↔ ∃ n, m.fromName n = some v := by
    intro v
    rw [ErrMap.hasValue, Option.isSome_iff_exists]
    exact exists_congr fun n => (hs n v).symm
  refine ⟨m, m.fromName, h1, hm, fun _ => rfl, fun v n => (hs n v).symm, ?_, ?_, ?_⟩
  · intro cond v op hi
    rw [← hval]
    simp only [buildVerify, hi, if_pos]
    split
    · rename_i h; simp only [Out.ok.injEq, h, true_and]; exact eq_comm
    · rename_i h; simp [h]
  · intro cond v hi
    rw [← hval]
    simp only [buildVerify, hi, if_pos]
    split
    · rename_i h; simp [h]
    · rename_i h; simp [h]
  · intro rz states init data trunc fuel phv hst
    cases hp : Parse.parse rz states init data trunc fuel phv with
    | none => simp [parseCode, hp]
    | some r =>
      cases r with
      | none => simp [parseCode, hp]
      | some r =>
        obtain ⟨⟨st, e⟩, pl⟩ := r
        obtain ⟨ha, v, n, hv, hn⟩ := packetCode_spec hs hm (e := e) (by
          intro v he; subst he; exact parse_arch hst hp)
        refine ⟨v, n, hv, hn, ?_⟩
        simp [parseCode, hp, ha, hv]

/-- A header vector without headers. -/
def phv0 : Phv := ⟨[], [], [], [], []⟩

/-- Reading what was loaded. -/
def Out.get? {α : Type} : Out α → Option α
  | .ok a => some a
  | _ => none

/-- Two errors and three core errors, four core errors to add. -/
def errs : List (String × Int) := [("NoError", 3), ("Mine", 0), ("NoMatch", 7), ("Yours", 5), ("PacketTooShort", 1)]

example : Unique errs ∧ ∀ p ∈ errs, 0 ≤ p.2 ∧ p.2 + (undeclared errs).length < 2 ^ 31 - 1 := by decide

/-- Values of core errors; the error of a packet whose parser raises `Yours`, shifts beyond the end, and raises nothing. -/
example : ((loadErrors errs).get?.map fun m => (coreNames.map m.fromName,
      parseCode m false [⟨[.verify (fun _ => some false) (fun _ => some 5)], none, none⟩] (some 0) [1, 2] 2 3 phv0,
      parseCode m false [⟨[.shift 3], none, none⟩] (some 0) [1, 2] 2 3 phv0,
      parseCode m false [⟨[.shift 2], none, none⟩] (some 0) [1, 2] 2 3 phv0)) =
    some ([some 3, some 1, some 7, some 8, some 9, some 10, some 11], some (some 5), some (some 1), some (some 3)) := by decide +kernel

/-- Errors with a name or a value used twice are refused, and no others. -/
theorem C114_refused {es : List (String × Int)} (hi : ∀ p ∈ es, -2 ^ 31 ≤ p.2 ∧ p.2 < 2 ^ 31) :
    loadErrors es = .refused ↔ ¬ Unique es :=
  loadErrors_refused fun p hp => by rw [isInt_iff]; have := hi p hp; omega

example : (∀ p ∈ ([("a", 1), ("b", 1)] : List (String × Int)), -2 ^ 31 ≤ p.2 ∧ p.2 < 2 ^ 31) ∧ ¬ Unique [("a", 1), ("b", 1)] := by decide

/-- Enums: loaded or refused, and every constant has its value, in both directions. -/
theorem C114_enums {ds : List (String × List (String × Int))}
    (hi : ∀ d ∈ ds, ∀ p ∈ d.2, NoDot p.1 ∧ -2 ^ 31 ≤ p.2 ∧ p.2 < 2 ^ 31) :
    (EnumsUnique ds → ∃ m, loadEnums ds = .ok m ∧
      (∀ name v, m.fromName name = some v ↔ ∃ e n, Constant ds e n v ∧ name = e ++ "." ++ n) ∧
      (∀ e v name, m.toName e v = some name ↔ ∃ n, Constant ds e n v ∧ name = e ++ "." ++ n)) ∧
    (¬ EnumsUnique ds → loadEnums ds = .refused) := by
  obtain ⟨h1, h2⟩ := addEnums_spec ds {} [] rep_empty ⟨by simp, by simp⟩ (by intro d hd; simp at hd)
    (fun d hd p hp => by obtain ⟨a, b, c⟩ := hi d hd p hp; exact ⟨a, by rw [isInt_iff]; omega⟩)
  simp only [List.nil_append] at h1 h2
  refine ⟨fun hu => ?_, h2⟩
  obtain ⟨m, hm, hr⟩ := h1 hu
  refine ⟨m, hm, hr.vals, fun e v name => ?_⟩
  simp only [EnumMap.toName, bind, Option.bind_eq_some_iff]
  constructor
  · rintro ⟨em, hl, hv⟩
    obtain ⟨⟨a, es⟩, hmem, rfl⟩ := List.mem_map.1 (hr.only e (by rw [hl]; rfl))
    obtain ⟨em', hl', hem⟩ := hr.ents a es hmem
    rw [hl] at hl'
    obtain rfl := Option.some.inj hl'
    obtain ⟨n, hn, hs⟩ := (hem v name).1 hv
    exact ⟨n, ⟨es, hmem, hn⟩, hs⟩
  · rintro ⟨n, ⟨es, hmem, hn⟩, hs⟩
    obtain ⟨em, hl, hem⟩ := hr.ents e es hmem
    exact ⟨em, hl, (hem v name).2 ⟨n, hn, hs⟩⟩

/-- Two enums with the same entries. -/
def enums : List (String × List (String × Int)) := [("Color", [("RED", 2), ("GREEN", 1)]), ("Lamp.Color", [("RED", 7), ("OFF", 2)])]

example : (∀ d ∈ enums, ∀ p ∈ d.2, NoDot p.1 ∧ -2 ^ 31 ≤ p.2 ∧ p.2 < 2 ^ 31) ∧ (enums.map Prod.fst).Nodup ∧ ∀ d ∈ enums, Unique d.2 := by
  decide

example : ((loadEnums enums).get?.map fun m => [m.fromName "Color.RED", m.fromName "Lamp.Color.RED", m.fromName "RED"]) =
    some [some 2, some 7, none] ∧
    ((loadEnums enums).get?.map fun m => [m.toName "Lamp.Color" 2, m.toName "Color" 7]) = some [some "Lamp.Color.OFF", none] := by
  decide +kernel

/-- The largest value of the documented range: the values of the core errors overflow. -/
theorem C114_refuted_last : ∃ es, Unique es ∧ Documented es ∧ loadErrors es = .ub :=
  ⟨[("Mine", 2 ^ 31 - 2)], by decide +kernel⟩

/-- Values out of the documented range are not refused: a negative value is accepted, the reserved value overflows, a larger one ends
loading with an exception. -/
theorem C114_refuted_range : ∃ a b c : Int, ¬ Documented [("Mine", a)] ∧ ¬ Documented [("Mine", b)] ∧ ¬ Documented [("Mine", c)] ∧
    ((loadErrors [("Mine", a)]).get?.map fun m => m.fromName "Mine") = some (some a) ∧
    loadErrors [("Mine", b)] = .ub ∧ loadErrors [("Mine", c)] = .thrown :=
  ⟨-5, 2 ^ 31 - 1, 2 ^ 31, by decide +kernel⟩

/-- A `verify` with an expression is loaded; when the value is no error of the program the exception thrown for the message leaves the
parser. -/
theorem C114_refuted_verify : ∃ (es : List (String × Int)) (m : ErrMap) (op : Op), Unique es ∧ Documented es ∧ loadErrors es = .ok m ∧
    buildVerify m (fun _ => some false) (.expr (fun _ => some 99)) = .ok op ∧
    (∃ r, Parse.parse false [⟨[op], none, none⟩] (some 0) [1, 2] 2 3 phv0 = some (some r)) ∧
    parseCode m false [⟨[op], none, none⟩] (some 0) [1, 2] 2 3 phv0 = none := by
  refine ⟨[("NoError", 0)], _, _, by decide, by decide, rfl, rfl, ⟨_, rfl⟩, rfl⟩

/-- Two different enums, unique within each, refused because the full names of two constants are the same text. -/
theorem C114_refuted_enums : ∃ ds : List (String × List (String × Int)), (ds.map Prod.fst).Nodup ∧ (∀ d ∈ ds, Unique d.2) ∧
    (∀ d ∈ ds, Documented d.2) ∧ loadEnums ds = .refused :=
  ⟨[("a.b", [("c", 0)]), ("a", [("b.c", 0)])], by decide +kernel⟩

end Bm.Const
