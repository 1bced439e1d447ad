import Verif.Model.Algo
import Verif.Spec.Crc
import Verif.Spec.Hash
import Verif.Spec.Cksum

/-!
# What calculations compute

An algorithm is named in the program.  Its parameters are those of its name, until a request sets others.
-/

namespace Bm.Algo.Spec

/-- What a calculation computes. -/
inductive Alg
  | crc (w : Nat) (poly init xout : BitVec w) (ri ro : Bool)
  | toeplitz (key : Bytes)
  | xor (n : Nat)
  | checksum
  | identity
  | counter
  | consistent
  | xxh64

/-- `v` is the result for `input`; `old`: the inputs of earlier computations of the same calculation. -/
def Val (xx : Bytes → BitVec 64) (a : Alg) (old : List Bytes) (input : Bytes) (v : BitVec 64) : Prop :=
  match a with
  | .crc w p i x ri ro => ∃ r : BitVec w, Crc.Spec.IsCrc p i x ri ro input r ∧ v.toNat = r.toNat
  | .toeplitz key => ∃ r : BitVec 32, (∀ t, t < 32 → r.getMsbD t = Hash.Spec.toeplitz key input t) ∧ v.toNat = r.toNat
  | .xor n => ∃ r : BitVec (8 * n), (∀ t, t < 8 * n → r.getMsbD t = Hash.Spec.xorWords n input t) ∧ v.toNat = r.toNat
  | .checksum => v.toNat = Cksum.Spec.checksum input
  | .identity => v.toNat = Hash.Spec.value (input.take 8)
  | .counter => v = BitVec.ofNat 64 old.length
  | .consistent => v = BitVec.ofNat 64 ((Hash.Spec.distinct old).idxOf input)
  | .xxh64 => v = xx input

/-- Which parameters can be set at run time. -/
inductive Kind | none | crc16 | crc32 | key
  deriving DecidableEq

/-- The algorithms built in, by name. -/
def builtIn : List (Name × Alg × Kind) := [
  ("xxh64".toList, .xxh64, .none),
  ("crc16".toList, .crc 16 0x8005 0 0 true true, .none),
  ("crc32".toList, .crc 32 0x04c11db7 0xffffffff 0xffffffff true true, .none),
  ("crcCCITT".toList, .crc 16 0x1021 0xffff 0 false false, .none),
  ("cksum16".toList, .checksum, .none),
  ("csum16".toList, .checksum, .none),
  ("toeplitz".toList, .toeplitz [0, 0, 0, 0], .key),
  ("identity".toList, .identity, .none),
  ("round_robin".toList, .counter, .none),
  ("round_robin_consistent".toList, .consistent, .none),
  ("xor16".toList, .xor 2, .none),
  ("xor32".toList, .xor 4, .none),
  ("crc8_custom".toList, .crc 8 0x07 0 0 false false, .none),
  ("crc16_custom".toList, .crc 16 0x8005 0 0 true true, .crc16),
  ("crc32_custom".toList, .crc 32 0x04c11db7 0xffffffff 0xffffffff true true, .crc32),
  ("crc64_custom".toList, .crc 64 0x1b 0 0 true true, .none)]

/-- A CRC of the published catalogues: the polynomial without its highest term, and the check value, that is the result for the
characters `123456789`. -/
structure Entry where
  name : Name
  w : Nat
  poly : Nat
  init : Nat
  xout : Nat
  rev : Bool
  check : Nat

/-- The predefined CRCs (the names of crcmod, with underscores). -/
def catalogue : List Entry := [
  ⟨"crc_8".toList, 8, 0x7, 0x0, 0x0, false, 0xf4⟩,
  ⟨"crc_8_darc".toList, 8, 0x39, 0x0, 0x0, true, 0x15⟩,
  ⟨"crc_8_i_code".toList, 8, 0x1d, 0xfd, 0x0, false, 0x7e⟩,
  ⟨"crc_8_itu".toList, 8, 0x7, 0x0, 0x55, false, 0xa1⟩,
  ⟨"crc_8_maxim".toList, 8, 0x31, 0x0, 0x0, true, 0xa1⟩,
  ⟨"crc_8_rohc".toList, 8, 0x7, 0xff, 0x0, true, 0xd0⟩,
  ⟨"crc_8_wcdma".toList, 8, 0x9b, 0x0, 0x0, true, 0x25⟩,
  ⟨"crc_16".toList, 16, 0x8005, 0x0, 0x0, true, 0xbb3d⟩,
  ⟨"crc_16_buypass".toList, 16, 0x8005, 0x0, 0x0, false, 0xfee8⟩,
  ⟨"crc_16_dds_110".toList, 16, 0x8005, 0x800d, 0x0, false, 0x9ecf⟩,
  ⟨"crc_16_dect".toList, 16, 0x589, 0x0, 0x1, false, 0x7e⟩,
  ⟨"crc_16_dnp".toList, 16, 0x3d65, 0x0, 0xffff, true, 0xea82⟩,
  ⟨"crc_16_en_13757".toList, 16, 0x3d65, 0x0, 0xffff, false, 0xc2b7⟩,
  ⟨"crc_16_genibus".toList, 16, 0x1021, 0xffff, 0xffff, false, 0xd64e⟩,
  ⟨"crc_16_maxim".toList, 16, 0x8005, 0x0, 0xffff, true, 0x44c2⟩,
  ⟨"crc_16_mcrf4xx".toList, 16, 0x1021, 0xffff, 0x0, true, 0x6f91⟩,
  ⟨"crc_16_riello".toList, 16, 0x1021, 0xb2aa, 0x0, true, 0x63d0⟩,
  ⟨"crc_16_t10_dif".toList, 16, 0x8bb7, 0x0, 0x0, false, 0xd0db⟩,
  ⟨"crc_16_teledisk".toList, 16, 0xa097, 0x0, 0x0, false, 0xfb3⟩,
  ⟨"crc_16_usb".toList, 16, 0x8005, 0xffff, 0xffff, true, 0xb4c8⟩,
  ⟨"x_25".toList, 16, 0x1021, 0xffff, 0xffff, true, 0x906e⟩,
  ⟨"xmodem".toList, 16, 0x1021, 0x0, 0x0, false, 0x31c3⟩,
  ⟨"modbus".toList, 16, 0x8005, 0xffff, 0x0, true, 0x4b37⟩,
  ⟨"kermit".toList, 16, 0x1021, 0x0, 0x0, true, 0x2189⟩,
  ⟨"crc_ccitt_false".toList, 16, 0x1021, 0xffff, 0x0, false, 0x29b1⟩,
  ⟨"crc_aug_ccitt".toList, 16, 0x1021, 0x1d0f, 0x0, false, 0xe5cc⟩,
  ⟨"crc_32".toList, 32, 0x4c11db7, 0xffffffff, 0xffffffff, true, 0xcbf43926⟩,
  ⟨"crc_32_bzip2".toList, 32, 0x4c11db7, 0xffffffff, 0xffffffff, false, 0xfc891918⟩,
  ⟨"crc_32c".toList, 32, 0x1edc6f41, 0xffffffff, 0xffffffff, true, 0xe3069283⟩,
  ⟨"crc_32d".toList, 32, 0xa833982b, 0xffffffff, 0xffffffff, true, 0x87315576⟩,
  ⟨"crc_32_mpeg".toList, 32, 0x4c11db7, 0xffffffff, 0x0, false, 0x376e6e7⟩,
  ⟨"posix".toList, 32, 0x4c11db7, 0x0, 0xffffffff, false, 0x765e7680⟩,
  ⟨"crc_32q".toList, 32, 0x814141ab, 0x0, 0x0, false, 0x3010bf7f⟩,
  ⟨"jamcrc".toList, 32, 0x4c11db7, 0xffffffff, 0x0, true, 0x340bc6d9⟩,
  ⟨"xfer".toList, 32, 0xaf, 0x0, 0x0, false, 0xbd0be338⟩,
  ⟨"crc_64".toList, 64, 0x1b, 0x0, 0x0, true, 0x46a5a9388a5beffe⟩,
  ⟨"crc_64_we".toList, 64, 0x42f0e1eba9ea3693, 0xffffffffffffffff, 0xffffffffffffffff, false, 0x62ec59e3f1a4f00a⟩,
  ⟨"crc_64_jones".toList, 64, 0xad93d23594c935a9, 0xffffffffffffffff, 0x0, true, 0xcaa717168609f281⟩]

/-- The algorithm of an entry. -/
def Entry.alg (e : Entry) : Alg :=
  .crc e.w (BitVec.ofNat e.w e.poly) (BitVec.ofNat e.w e.init) (BitVec.ofNat e.w e.xout) e.rev e.rev

/-- A property in the description of a CRC, with its digits. -/
inductive Prop'
  | init (ds : List Nat)
  | xout (ds : List Nat)
  | notRev

/-- Digits are below 16, and there is one at least. -/
def Digits (ds : List Nat) : Prop := ds ≠ [] ∧ ∀ d ∈ ds, d < 16

/-- The number the digits stand for. -/
def num (ds : List Nat) : Nat := ds.foldl (fun n d => 16 * n + d) 0

/-- How digits are written. -/
def hex (ds : List Nat) : Name := "0x".toList ++ ds.map Save.hexDigit

/-- How a property is written. -/
def Prop'.text : Prop' → Name
  | .init ds => "_init_".toList ++ hex ds
  | .xout ds => "_xout_".toList ++ hex ds
  | .notRev => "_not_rev".toList

/-- How a CRC is described: the polynomial with its highest term, which is the digit 1, and properties. -/
def text (poly : List Nat) (l : List Prop') : Name := "poly_".toList ++ hex (1 :: poly) ++ l.flatMap Prop'.text

/-- The values of a property are digits, and fit. -/
def Prop'.Fits (w : Nat) : Prop' → Prop
  | .init ds => Digits ds ∧ num ds < 2 ^ w
  | .xout ds => Digits ds ∧ num ds < 2 ^ w
  | .notRev => True

/-- The initial value after a property. -/
def Prop'.init? (n : Nat) : Prop' → Nat
  | .init ds => num ds
  | _ => n

/-- The value for the final exclusive or after a property. -/
def Prop'.xout? (n : Nat) : Prop' → Nat
  | .xout ds => num ds
  | _ => n

/-- Reflected after a property. -/
def Prop'.rev? (r : Bool) : Prop' → Bool
  | .notRev => false
  | _ => r

/-- The last initial value given; 0 by default. -/
def initOf (l : List Prop') : Nat := l.foldl Prop'.init? 0

/-- The last value for the final exclusive or; 0 by default. -/
def xoutOf (l : List Prop') : Nat := l.foldl Prop'.xout? 0

/-- Reflected, unless said otherwise. -/
def revOf (l : List Prop') : Bool := l.foldl Prop'.rev? true

/-! ## Sessions -/

/-- A calculation: what it computes, what can be set, its inputs so far. -/
structure Calc where
  alg : Alg
  kind : Kind
  old : List Bytes

/-- The calculations of each context. -/
abbrev St := Nat → Name → Option Calc

/-- The calculations a program names. -/
def init (cfgs : List (List (Name × Name))) : St := fun k n =>
  (cfgs[k]?).bind fun cfg => (cfg.lookup n).bind fun a => (builtIn.lookup a).map fun p => ⟨p.1, p.2, []⟩

/-- One calculation changes, no other one. -/
def upd (s : St) (k : Nat) (n : Name) (c : Calc) : St := fun k' n' => if k' = k ∧ n' = n then some c else s k' n'

/-- The request is for a calculation of the program. -/
def Req.Known (s : St) : Req → Prop
  | .compute k n _ => s k n ≠ none
  | .crc16 k n _ _ _ _ _ => s k n ≠ none
  | .crc32 k n _ _ _ _ _ => s k n ≠ none
  | .key k n _ => s k n ≠ none

/-- What a request changes. -/
def after (s : St) : Req → St
  | .compute k n buf =>
    match s k n with
    | some c => upd s k n { c with old := c.old ++ [buf] }
    | none => s
  | .crc16 k n p i x ri ro =>
    match s k n with
    | some c =>
      if c.kind = .crc16 then
        upd s k n { c with alg := .crc 16 (BitVec.ofInt 16 p) (BitVec.ofInt 16 i) (BitVec.ofInt 16 x) ri ro }
      else s
    | none => s
  | .crc32 k n p i x ri ro =>
    match s k n with
    | some c =>
      if c.kind = .crc32 then
        upd s k n { c with alg := .crc 32 (BitVec.ofInt 32 p) (BitVec.ofInt 32 i) (BitVec.ofInt 32 x) ri ro }
      else s
    | none => s
  | .key k n key =>
    match s k n with
    | some c => if c.kind = .key ∧ Hash.Spec.KeyOk key then upd s k n { c with alg := .toeplitz key } else s
    | none => s

/-- The answers: 1 for calculations the program does not have, 2 for parameters the calculation does not have, 3 for bad keys. -/
def Answer (xx : Bytes → BitVec 64) (s : St) (q : Req) (r : Res) : Prop :=
  match q with
  | .compute k n buf => ∃ c v, s k n = some c ∧ r = .value v ∧ Val xx c.alg c.old buf v
  | .crc16 k n _ _ _ _ _ =>
    r = match s k n with | none => .code 1 | some c => if c.kind = .crc16 then .done else .code 2
  | .crc32 k n _ _ _ _ _ =>
    r = match s k n with | none => .code 1 | some c => if c.kind = .crc32 then .done else .code 2
  | .key k n key =>
    r = match s k n with
      | none => .code 1
      | some c => if c.kind = .key then (if Hash.Spec.KeyOk key then .done else .code 3) else .code 2

/-- Requests and results belong together. -/
def Session (xx : Bytes → BitVec 64) : St → List Req → List Res → Prop
  | _, [], [] => True
  | s, q :: qs, r :: rs => Answer xx s q r ∧ Session xx (after s q) qs rs
  | _, _, _ => False

/-- All requests are for calculations of the program (which do not change). -/
def Possible (s : St) (qs : List Req) : Prop := ∀ q ∈ qs, Req.Known s q

end Bm.Algo.Spec
