import Verif.Lemmas.StateFile
import Mathlib.Data.List.Forall2

/-!
# C79: MD5.  C80: the configuration a saved state is for

`/repo/src/bm_sim/md5.c`, `/repo/src/bm_sim/switch.cpp:381-433`
-/

namespace Bm.Md5
open Spec

/-- **C79**: for all data, given in any number of pieces of any lengths, the digest is MD5 (RFC 1321) of the whole, whatever
the memory of the context held, and no access is out of bounds. -/
theorem C79 (buf : Bytes) (hb : buf.length = 64) (pieces : List Bytes) (hp : ∀ x ∈ pieces, x.length < 2 ^ 64) :
    digest buf pieces = some (md5 pieces.flatten) := by
  obtain ⟨c, e, h⟩ := updates_eq pieces _ [] (inv_init buf hb) hp
  rw [digest, e]
  exact final_eq c _ (by simpa using h)

/-- How the data are cut into pieces does not matter. -/
theorem C79_pieces (buf buf' : Bytes) (hb : buf.length = 64) (hb' : buf'.length = 64) (xs ys : List Bytes)
    (hx : ∀ x ∈ xs, x.length < 2 ^ 64) (hy : ∀ y ∈ ys, y.length < 2 ^ 64) (e : xs.flatten = ys.flatten) :
    digest buf xs = digest buf' ys := by rw [C79 buf hb xs hx, C79 buf' hb' ys hy, e]

/-- Three pieces, the second of which completes a block, and a memory with other bytes. -/
example : digest (List.replicate 64 0xaa) [ascii "1234567890123456789012345678901234567890", [],
      ascii "1234567890123456789012345678901", ascii "234567890"] =
    some [0x57, 0xed, 0xf4, 0xa2, 0x2b, 0xe3, 0xc9, 0x55, 0xac, 0x49, 0xda, 0x2e, 0x21, 0x07, 0xb6, 0x7a] := by
  decide +kernel

end Bm.Md5

namespace Bm.StateFile
open Md5.Spec

variable {buf buf' config config' : Bytes}

/-- **C80** as it should hold: a state is restored by a switch with the configuration it was saved with, and refused by
switches with another one (one with another digest). -/
def Full (C : Bytes → Prop) : Prop :=
  ∀ buf buf' config config' texts loads, buf.length = 64 → buf'.length = 64 → config.length < 2 ^ 64 →
    config'.length < 2 ^ 64 → C config → ∃ file, save buf config texts = some file ∧
      (config' = config → load buf' config' loads file = (loadCxts loads (10 :: texts.flatten)).map .loaded) ∧
      (md5 config' ≠ md5 config → load buf' config' loads file = some .badConfig)

/-- **C80 (partial)**: it holds if no byte of the digest of the configuration is a blank. -/
theorem C80_partial : Full fun config => ∀ x ∈ md5 config, isSpace x = false := by
  intro buf buf' config config' texts loads hb hb' hc hc' hC
  have hr : readString (md5 config ++ 10 :: texts.flatten) = (md5 config, 10 :: texts.flatten) :=
    readString_word (by intro h; have := Md5.md5_length config; rw [h] at this; cases this) hC 10 (by decide) _
  refine ⟨_, save_eq texts hb hc, ?_, ?_⟩
  · rintro rfl
    rw [load_saved _ hb' hc', hr, if_neg (fun h => h rfl)]
  · intro hne
    rw [load_saved _ hb' hc', hr, if_pos (fun h => hne h.symm)]

theorem loadCxts_ok : ∀ {loads : List (Bytes → Option Bytes)} {texts : List Bytes},
    List.Forall₂ (fun f t => ∀ rest, f (t ++ rest) = some rest) loads texts → ∀ rest,
    loadCxts loads (texts.flatten ++ rest) = some rest
  | _, _, .nil, rest => rfl
  | _, _, .cons h hs, rest => by
    simp only [List.flatten_cons, List.append_assoc, loadCxts, h, Option.bind_eq_bind, Option.bind_some]
    exact loadCxts_ok hs rest

/-- With digests without blanks: if every context reads exactly its own text (the first one also after the newline at the
end of the header), then the contexts get the texts that were saved, each its own, and nothing is left. -/
theorem C80_contexts_partial (hb : buf.length = 64) (hb' : buf'.length = 64) (hc : config.length < 2 ^ 64)
    (hC : ∀ x ∈ md5 config, isSpace x = false) {f : Bytes → Option Bytes} {t : Bytes} {loads : List (Bytes → Option Bytes)}
    {texts : List Bytes} (hf : ∀ rest, f (10 :: (t ++ rest)) = some rest)
    (hl : List.Forall₂ (fun f t => ∀ rest, f (t ++ rest) = some rest) loads texts) :
    ∃ file, save buf config (t :: texts) = some file ∧ load buf' config (f :: loads) file = some (.loaded []) := by
  have hr : readString (md5 config ++ 10 :: (t :: texts).flatten) = (md5 config, 10 :: (t :: texts).flatten) :=
    readString_word (by intro h; have := Md5.md5_length config; rw [h] at this; cases this) hC 10 (by decide) _
  refine ⟨_, save_eq (t :: texts) hb hc, ?_⟩
  rw [load_saved _ hb' hc, hr, if_neg (fun h => h rfl)]
  have := loadCxts_ok hl []
  rw [List.append_nil] at this
  simp only [List.flatten_cons, loadCxts, hf, this, Option.bind_eq_bind, Option.bind_some, Option.map_some]

/-- A context that reads its own text, of two bytes. -/
def two (x y : UInt8) : Bytes → Option Bytes
  | a :: b :: r => if (a, b) = (x, y) then some r else if a = 10 ∧ b = x ∧ r.head? = some y then some r.tail else none
  | _ => none

/-- Two contexts. -/
example : (do load (List.replicate 64 1) (ascii "[]") [two 1 2, two 3 4] (← save (List.replicate 64 0) (ascii "[]")
    [[1, 2], [3, 4]])) = some (.loaded []) ∧
  (∀ rest, two 1 2 (10 :: ([1, 2] ++ rest)) = some rest) ∧ (∀ rest, two 3 4 ([3, 4] ++ rest) = some rest) :=
  ⟨by decide +kernel, fun _ => rfl, fun _ => rfl⟩

/-- A state saved with a configuration whose digest has a blank (and not only blanks) is refused by every switch, the one
that saved it among them. -/
theorem C80_blank (texts : List Bytes) (loads : List (Bytes → Option Bytes)) (hb : buf.length = 64) (hb' : buf'.length = 64)
    (hc : config.length < 2 ^ 64) (hc' : config'.length < 2 ^ 64) (h1 : ∃ x ∈ md5 config, isSpace x = true)
    (h2 : ∃ x ∈ md5 config, isSpace x = false) :
    ∃ file, save buf config texts = some file ∧ load buf' config' loads file = some .badConfig := by
  refine ⟨_, save_eq texts hb hc, ?_⟩
  have := readString_short h1 h2 (sep := 10) (by decide) texts.flatten
  rw [Md5.md5_length] at this
  rw [load_saved _ hb' hc', if_pos]
  intro h
  rw [h, Md5.md5_length] at this
  omega

/-- So, digests of 16 blanks aside, a state is refused by a switch with another digest in any case, and restored by a switch
with the same one exactly if it has no blank. -/
theorem C80_iff (texts : List Bytes) (hb : buf.length = 64) (hb' : buf'.length = 64)
    (hc : config.length < 2 ^ 64) (hc' : config'.length < 2 ^ 64) (h2 : ∃ x ∈ md5 config, isSpace x = false) :
    ∃ file, save buf config texts = some file ∧
      (load buf' config' [] file ≠ some .badConfig ↔ md5 config' = md5 config ∧ ∀ x ∈ md5 config, isSpace x = false) := by
  by_cases h1 : ∃ x ∈ md5 config, isSpace x = true
  · obtain ⟨file, e1, e2⟩ := C80_blank (config' := config') texts [] hb hb' hc hc' h1 h2
    refine ⟨file, e1, ?_⟩
    obtain ⟨x, hx, hs⟩ := h1
    constructor
    · intro h; exact absurd e2 h
    · rintro ⟨-, h⟩
      rw [h x hx] at hs
      cases hs
  · have hC : ∀ x ∈ md5 config, isSpace x = false := by
      intro x hx
      cases h : isSpace x with
      | false => rfl
      | true => exact absurd ⟨x, hx, h⟩ h1
    have hr : readString (md5 config ++ 10 :: texts.flatten) = (md5 config, 10 :: texts.flatten) :=
      readString_word (by intro h; have := Md5.md5_length config; rw [h] at this; cases this) hC 10 (by decide) _
    refine ⟨_, save_eq texts hb hc, ?_⟩
    rw [load_saved _ hb' hc', hr]
    by_cases h : md5 config = md5 config'
    · rw [if_neg (fun k => k h)]
      simp only [loadCxts, h, Option.map_some, true_and]
      exact ⟨fun _ => h ▸ hC, fun _ h => by cases h⟩
    · rw [if_pos h]
      simp [Ne.symm h]

/-- A file of another version is refused. -/
theorem C80_version (loads : List (Bytes → Option Bytes)) (hb : buf.length = 64) (hc : config.length < 2 ^ 64)
    {pre w r : Bytes} (hp : ∀ x ∈ pre, isSpace x = true) (hw : ∀ x ∈ w, isSpace x = false) (h0 : w ≠ [])
    (hne : w ≠ ascii "06062016_0") {sep : UInt8} (hs : isSpace sep = true) :
    load buf config loads (pre ++ (w ++ sep :: r)) = some .badVersion := by
  have hr : (readString (pre ++ (w ++ sep :: r))).1 ≠ version := by
    have e : readString (pre ++ (w ++ sep :: r)) = readString (w ++ sep :: r) := by
      simp only [readString]
      rw [dropWhile_all hp]
    rw [e]
    rw [readString_word h0 hw sep hs]
    exact fun h => hne (h.trans (by decide +kernel))
  simp only [load, configMd5_eq hb hc, Option.bind_eq_bind, Option.bind_some]
  rw [if_pos hr]
  rfl

/-- A configuration of the tests: `/repo/tests/testdata/one_header.json`. -/
def oneHeader : Bytes := ascii (
    "{\n" ++
    "    \"header_types\": [{\"name\": \"hdr_t\", \"id\": 0, \"fields\": [\n" ++
    "        [\"f1\", 32], [\"f2\", 32], [\"f3\", 32]]}],\n" ++
    "    \"headers\": [{\"name\": \"hdr\", \"id\": 0, \"header_type\": \"hdr_t\"}]\n" ++
    "}\n")

/-- Byte 3 of its digest is 13, a carriage return. -/
theorem oneHeader_md5 : md5 oneHeader =
    [0x05, 0x6d, 0x00, 0x0d, 0xe4, 0x74, 0x28, 0x72, 0x38, 0x8e, 0x24, 0xaf, 0x8a, 0xea, 0x98, 0xa2] := by
  decide +kernel

/-- A configuration whose states cannot be restored. -/
theorem C80_refuted : ¬ Full fun _ => True := by
  intro h
  obtain ⟨file, e, h1, -⟩ := h (List.replicate 64 0) (List.replicate 64 0) oneHeader oneHeader [] [] rfl rfl
    (by decide +kernel) (by decide +kernel) trivial
  obtain ⟨file', e', h2⟩ := C80_blank (buf := List.replicate 64 0) (buf' := List.replicate 64 0) (config := oneHeader)
    (config' := oneHeader) [] [] rfl rfl (by decide +kernel) (by decide +kernel)
    ⟨0x0d, by rw [oneHeader_md5]; decide, by decide⟩ ⟨0x05, by rw [oneHeader_md5]; decide, by decide⟩
  rw [e] at e'
  cases e'
  rw [h1 rfl] at h2
  cases h2

/-- So is the one a switch has before any is loaded, `{}` (`/repo/include/bm/bm_sim/switch.h:953`). -/
theorem C80_default : ∃ file, save (List.replicate 64 0) (ascii "{}") [] = some file ∧
    load (List.replicate 64 0) (ascii "{}") [] file = some .badConfig :=
  ⟨_, rfl, by decide +kernel⟩

/-- The configuration `[]` has a digest without blanks: its state is restored, and refused with configuration `{}`. -/
example : (∀ x ∈ md5 (ascii "[]"), isSpace x = false) ∧
    (do load (List.replicate 64 1) (ascii "[]") [some] (← save (List.replicate 64 0) (ascii "[]") [ascii "t 0"])) =
      some (.loaded (10 :: ascii "t 0")) ∧
    (do load (List.replicate 64 1) (ascii "{}") [some] (← save (List.replicate 64 0) (ascii "[]") [ascii "t 0"])) =
      some .badConfig := by decide +kernel

/-- A file of another version. -/
example : load (List.replicate 64 1) (ascii "[]") [some] (ascii "01012016_0\n...") = some .badVersion := by decide +kernel

end Bm.StateFile
