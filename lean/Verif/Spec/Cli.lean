import Verif.Spec.Thrift

/-!
# Specification of the commands of the command line tool about tables (C100)

What a line of text means: how numbers and addresses are written, how they make match fields, and which request of the
Thrift interface (`Spec/Thrift`) carries the meaning.  Nothing of the model is used.
-/

namespace Bm.Cli

/-- A word of a line. -/
abbrev Text := List Char

/-- What the tool knows about an action: its name and the widths of its parameters. -/
structure ActD where
  name : String
  widths : List Nat
deriving DecidableEq, Repr

/-- What the tool knows about a table: whether entries have priorities, kind and width of the match fields, the names of
its actions. -/
structure TabD where
  name : String
  prio : Bool
  key : List (MType × Nat)
  acts : List String
deriving DecidableEq, Repr

/-- The program. -/
structure Cfg where
  tabs : List TabD
  acts : List ActD

/-- The library function that reads IPv6 addresses. -/
abbrev V6 := Text → Option (List UInt8)

namespace Spec

open Bm.Spec

/-! ## Numbers -/

/-- The digits. -/
def lower : Text := ['0', '1', '2', '3', '4', '5', '6', '7', '8', '9', 'a', 'b', 'c', 'd', 'e', 'f', 'g', 'h', 'i', 'j',
  'k', 'l', 'm', 'n', 'o', 'p', 'q', 'r', 's', 't', 'u', 'v', 'w', 'x', 'y', 'z']

@[inherit_doc lower] def upper : Text := ['0', '1', '2', '3', '4', '5', '6', '7', '8', '9', 'A', 'B', 'C', 'D', 'E', 'F',
  'G', 'H', 'I', 'J', 'K', 'L', 'M', 'N', 'O', 'P', 'Q', 'R', 'S', 'T', 'U', 'V', 'W', 'X', 'Y', 'Z']

/-- `c` is a digit to base `b`, and stands for `d`. -/
def Digit (b : Nat) (c : Char) (d : Nat) : Prop := d < b ∧ (lower[d]? = some c ∨ upper[d]? = some c)

/-- A sequence of digits, most significant first; an underscore may stand between two digits. -/
inductive Digits (b : Nat) : Text → Nat → Prop
  | one {c d} : Digit b c d → Digits b [c] d
  | next {t n c d} : Digits b t n → Digit b c d → Digits b (t ++ [c]) (n * b + d)
  | gap {t n c d} : Digits b t n → Digit b c d → Digits b (t ++ ['_', c]) (n * b + d)

/-- A sign or none. -/
inductive Signed (P : Text → Nat → Prop) : Text → Int → Prop
  | none {t n} : P t n → Signed P t n
  | plus {t n} : P t n → Signed P ('+' :: t) n
  | minus {t n} : P t n → Signed P ('-' :: t) (-n)

/-- After a prefix, there may be an underscore. -/
def AfterPrefix (b : Nat) (t : Text) (n : Nat) : Prop := Digits b t n ∨ ∃ t', t = '_' :: t' ∧ Digits b t' n

/-- Numbers as in a program: decimal without leading zeros, or with a prefix for the base. -/
inductive Literal : Text → Nat → Prop
  | dec {c t n} : Digits 10 (c :: t) n → c ≠ '0' → Literal (c :: t) n
  | zero {t} : Digits 10 t 0 → Literal t 0
  | hex {x t n} : x = 'x' ∨ x = 'X' → AfterPrefix 16 t n → Literal ('0' :: x :: t) n
  | oct {x t n} : x = 'o' ∨ x = 'O' → AfterPrefix 8 t n → Literal ('0' :: x :: t) n
  | bin {x t n} : x = 'b' ∨ x = 'B' → AfterPrefix 2 t n → Literal ('0' :: x :: t) n

/-- Hexadecimal numbers, with or without prefix. -/
inductive Hex : Text → Nat → Prop
  | bare {t n} : Digits 16 t n → Hex t n
  | pre {x t n} : x = 'x' ∨ x = 'X' → AfterPrefix 16 t n → Hex ('0' :: x :: t) n

/-- A signed decimal number. -/
abbrev Dec : Text → Int → Prop := Signed (Digits 10)

/-! ## Values -/

/-- Words with a separator between them. -/
def join (sep : Char) : List Text → Text
  | [] => []
  | [t] => t
  | t :: ts => t ++ sep :: join sep ts

/-- The number made of the given bytes, most significant first. -/
def fromBytes (ns : List Nat) : Nat := ns.foldl (fun a b => 256 * a + b) 0

/-- How a value of the given width is written: as a number, and if the width is that of an address, as an address. -/
inductive Value (v6 : V6) : Nat → Text → Int → Prop
  | num {w t v} : Signed Literal t v → Value v6 w t v
  | ipv4 {ts ns} : ts.length = 4 → List.Forall₂ (fun t (n : Nat) => Dec t n ∧ n < 256) ts ns →
      Value v6 32 (join '.' ts) (fromBytes ns)
  | mac {ts ns} : ts.length = 6 → List.Forall₂ (fun t (n : Nat) => Signed Hex t n ∧ n < 256) ts ns →
      Value v6 48 (join ':' ts) (fromBytes ns)
  | ipv6 {t bs} : ':' ∈ t → v6 t = some bs → Value v6 128 t (bytesNat bs)

/-- What a match field says. -/
inductive Field
  | exact (v : Int)
  | lpm (v len : Int)
  | ternary (v m : Int)
  | valid (b : Bool)
  | range (lo hi : Int)
deriving DecidableEq, Repr

/-- How a match field is written. -/
inductive FieldText (v6 : V6) : MType × Nat → Text → Field → Prop
  | exact {w t v} : Value v6 w t v → FieldText v6 (.exact, w) t (.exact v)
  | lpm {w t v l n} : Value v6 w t v → Dec l n → FieldText v6 (.lpm, w) (t ++ '/' :: l) (.lpm v n)
  | ternary {w t v t' m} : Value v6 w t v → Value v6 w t' m →
      FieldText v6 (.ternary, w) (t ++ '&' :: '&' :: '&' :: t') (.ternary v m)
  | valid {w t n} : Dec t n → FieldText v6 (.valid, w) t (.valid (decide (n ≠ 0)))
  | range {w t lo t' hi} : Value v6 w t lo → Value v6 w t' hi →
      FieldText v6 (.range, w) (t ++ '-' :: '>' :: t') (.range lo hi)

/-! ## Names -/

/-- A name in full, or what follows one of its dots. -/
def Suffix (q name : Text) : Prop := q = name ∨ ∃ p, name = p ++ '.' :: q

/-- The word `q` stands for the only name it is a suffix of. -/
def Names (all : List String) (q : Text) (n : String) : Prop :=
  n ∈ all ∧ Suffix q n.toList ∧ ∀ m ∈ all, Suffix q m.toList → m = n

/-- The word `q` stands for the table. -/
def NamesTab (cfg : Cfg) (q : Text) (T : TabD) : Prop := T ∈ cfg.tabs ∧ Names (cfg.tabs.map TabD.name) q T.name

/-- The word `q` stands for the action, and the table has it. -/
def NamesAct (cfg : Cfg) (T : TabD) (q : Text) (A : ActD) : Prop :=
  A ∈ cfg.acts ∧ Names (cfg.acts.map ActD.name) q A.name ∧ A.name ∈ T.acts

/-! ## Commands -/

/-- What a command asks for. -/
inductive Ask
  | add (key : List Field) (A : ActD) (data : List Int) (prio : Int)
  | setDefault (A : ActD) (data : List Int)
  | resetDefault
  | modify (h : Int) (A : ActD) (data : List Int)
  | delete (h : Int)
  | show (h : Int)
  | find (key : List Field) (prio : Int)
  | clear
  | count

/-- The key of a command. -/
def KeyText (v6 : V6) (T : TabD) (ks : List Text) (fs : List Field) : Prop := List.Forall₂
  (fun (x : (MType × Nat) × Text) f => FieldText v6 x.1 x.2 f) (T.key.zip ks) fs ∧ ks.length = T.key.length

/-- The parameters of an action. -/
def DataText (v6 : V6) (A : ActD) (ps : List Text) (vs : List Int) : Prop := List.Forall₂
  (fun (x : Nat × Text) v => Value v6 x.1 x.2 v) (A.widths.zip ps) vs ∧ ps.length = A.widths.length

/-- The priority at the end of a command, for the tables whose entries have one. -/
inductive PrioText (T : TabD) : List Text → Int → Prop
  | some {t n} : T.prio = true → Dec t n → PrioText T [t] n
  | none : T.prio = false → PrioText T [] 0

def arrow : Text := ['=', '>']

/-- The line says this about the table. -/
inductive Says (v6 : V6) (cfg : Cfg) : String → List Text → TabD → Ask → Prop
  | add {q a T A ks fs ps vs pr n} : NamesTab cfg q T → NamesAct cfg T a A → KeyText v6 T ks fs → DataText v6 A ps vs →
      PrioText T pr n → Says v6 cfg "table_add" (q :: a :: (ks ++ arrow :: (ps ++ pr))) T (.add fs A vs n)
  | setDefault {q a T A ps vs} : NamesTab cfg q T → NamesAct cfg T a A → DataText v6 A ps vs →
      Says v6 cfg "table_set_default" (q :: a :: ps) T (.setDefault A vs)
  | resetDefault {q T} : NamesTab cfg q T → Says v6 cfg "table_reset_default" [q] T .resetDefault
  | modify {q a T A h n ps vs} : NamesTab cfg q T → NamesAct cfg T a A → Dec h n → DataText v6 A ps vs →
      Says v6 cfg "table_modify" (q :: a :: h :: ps) T (.modify n A vs)
  | modify' {q a T A h n ps vs} : NamesTab cfg q T → NamesAct cfg T a A → Dec h n → DataText v6 A ps vs →
      Says v6 cfg "table_modify" (q :: a :: h :: arrow :: ps) T (.modify n A vs)
  | delete {q T h n} : NamesTab cfg q T → Dec h n → Says v6 cfg "table_delete" [q, h] T (.delete n)
  | show {q T h n} : NamesTab cfg q T → Dec h n → Says v6 cfg "table_dump_entry" [q, h] T (.show n)
  | find {q T ks fs pr n} : NamesTab cfg q T → KeyText v6 T ks fs → PrioText T pr n →
      Says v6 cfg "table_dump_entry_from_key" (q :: (ks ++ pr)) T (.find fs n)
  | clear {q T} : NamesTab cfg q T → Says v6 cfg "table_clear" [q] T .clear
  | count {q T} : NamesTab cfg q T → Says v6 cfg "table_num_entries" [q] T .count

/-! ## Requests -/

open Bm.Thrift in
/-- The bytes hold the value, and are as many as a value of the width needs. -/
def Holds (w : Nat) (v : Int) (bs : List UInt8) : Prop := bs.length = (w + 7) / 8 ∧ (bytesNat bs : Int) = v

open Bm.Thrift in
/-- The match parameter says what the field says. -/
def Carries (w : Nat) : Field → TParam → Prop
  | .exact v, .exact k => Holds w v k
  | .lpm v n, .lpm k l => Holds w v k ∧ l = n
  | .ternary v m, .ternary k k' => Holds w v k ∧ Holds w m k'
  | .valid b, .valid c => b = c
  | .range lo hi, .range k k' => Holds w lo k ∧ Holds w hi k'
  | _, _ => False

open Bm.Thrift in
/-- The match parameters of a request. -/
def CarriesKey (T : TabD) (fs : List Field) (ps : List TParam) : Prop := ps.length = T.key.length ∧
  List.Forall₂ (fun (x : (MType × Nat) × Field) p => Carries x.1.2 x.2 p) (T.key.zip fs) ps

/-- The action data of a request. -/
def CarriesData (A : ActD) (vs : List Int) (bs : List (List UInt8)) : Prop := bs.length = A.widths.length ∧
  List.Forall₂ (fun (x : Nat × Int) b => Holds x.1 x.2 b) (A.widths.zip vs) bs

/-- The handle that a number stands for: the tool shows handles as signed numbers of 32 bits. -/
def handle (n : Int) : Nat := (n % 2 ^ 32).toNat

open Bm.Thrift in
/-- The request asks for this. -/
def Asks (T : TabD) : Ask → Call → Prop
  | .add fs A vs n, .add ps a bs m _ => CarriesKey T fs ps ∧ a = A.name ∧ CarriesData A vs bs ∧ m = n
  | .setDefault A vs, .setDefault a bs => a = A.name ∧ CarriesData A vs bs
  | .resetDefault, .resetDefault => True
  | .modify n A vs, .modify h a bs => h = handle n ∧ a = A.name ∧ CarriesData A vs bs
  | .delete n, .delete h => h = handle n
  | .show n, .get h => h = handle n
  | .find fs n, .getByKey ps m => CarriesKey T fs ps ∧ m = n
  | .clear, .clear b => b = false
  | .count, .count => True
  | _, _ => False

/-! ## Values that make sense -/

/-- A value of the width. -/
def Fits (w : Nat) (v : Int) : Prop := 0 ≤ v ∧ v < 2 ^ w

/-- A number of 32 bits with sign. -/
def Small (n : Int) : Prop := -2 ^ 31 ≤ n ∧ n < 2 ^ 31

/-- All values fit; ranges are not empty. -/
def Field.Sane (w : Nat) : Field → Prop
  | .exact v => Fits w v
  | .lpm v n => Fits w v ∧ Small n
  | .ternary v m => Fits w v ∧ Fits w m
  | .valid _ => True
  | .range lo hi => Fits w lo ∧ Fits w hi ∧ lo ≤ hi

/-- No negative values. -/
def Field.Nonneg : Field → Prop
  | .exact v => 0 ≤ v
  | .lpm v _ => 0 ≤ v
  | .ternary v m => 0 ≤ v ∧ 0 ≤ m
  | .valid _ => True
  | .range lo hi => 0 ≤ lo ∧ 0 ≤ hi

def SaneKey (T : TabD) (fs : List Field) : Prop := ∀ x ∈ T.key.zip fs, Field.Sane x.1.2 x.2

def SaneData (A : ActD) (vs : List Int) : Prop := ∀ x ∈ A.widths.zip vs, Fits x.1 x.2

/-- Everything in the command fits. -/
def Ask.Sane (T : TabD) : Ask → Prop
  | .add fs A vs n => SaneKey T fs ∧ SaneData A vs ∧ Small n
  | .setDefault A vs => SaneData A vs
  | .modify n A vs => Small n ∧ SaneData A vs
  | .delete n => Small n
  | .show n => Small n
  | .find fs n => SaneKey T fs ∧ Small n
  | _ => True

/-- No negative values in match fields or action data. -/
def Ask.Nonneg : Ask → Prop
  | .add fs _ vs _ => (∀ f ∈ fs, Field.Nonneg f) ∧ ∀ v ∈ vs, 0 ≤ v
  | .setDefault _ vs => ∀ v ∈ vs, 0 ≤ v
  | .modify _ _ vs => ∀ v ∈ vs, 0 ≤ v
  | .find fs _ => ∀ f ∈ fs, Field.Nonneg f
  | _ => True

/-! ## What a field says about packets -/

/-- A packet whose field of width `w` has value `x` is meant. -/
def Field.Meant (w : Nat) : Field → Nat → Prop
  | .exact v, x => (x : Int) = v
  | .lpm v n, x => x / 2 ^ (w - n.toNat) = v.toNat / 2 ^ (w - n.toNat)
  | .ternary v m, x => x &&& m.toNat = v.toNat &&& m.toNat
  | .valid b, x => x = if b then 1 else 0
  | .range lo hi, x => lo ≤ x ∧ x ≤ hi

/-- A packet with the given field values is meant by all fields. -/
def MeantAll (fs : List KeyF) (ask : List Field) (vals : List (List UInt8)) : Prop :=
  ∀ (i : Nat) (f : KeyF) (a : Field) (v : List UInt8), fs[i]? = some f → ask[i]? = some a → vals[i]? = some v →
    Field.Meant f.nbits a (bytesNat v)

/-- The tool and the switch know the same fields and actions of the table. -/
structure Agrees (cfg : Cfg) (T : TabD) (d : Thrift.Decl) : Prop where
  key : T.key = d.fs.map fun f => (f.mtype, f.nbits)
  acts : ∀ A ∈ cfg.acts, A.name ∈ T.acts → ∃ f, (A.name, f) ∈ d.names ∧ f.nparams = A.widths.length

/-- Prefixes are not longer than the field. -/
def LengthsOk (T : TabD) (fs : List Field) : Prop :=
  ∀ x ∈ T.key.zip fs, ∀ v n, x.2 = Field.lpm v n → 0 ≤ n ∧ n ≤ (x.1.2 : Int)

/-- Names are distinct; tables with priorities have a key. -/
structure Cfg.WF (cfg : Cfg) : Prop where
  tabs : (cfg.tabs.map TabD.name).Nodup
  acts : (cfg.acts.map ActD.name).Nodup
  prio : ∀ T ∈ cfg.tabs, T.prio = true → T.key ≠ []

/-! ## The library -/

/-- What is assumed about the library function that reads IPv6 addresses: addresses have 16 bytes, and are written without
the characters that separate the parts of match fields (there are no scope identifiers). -/
def V6.Proper (v6 : V6) : Prop := ∀ t bs, v6 t = some bs → bs.length = 16 ∧ '/' ∉ t ∧ '&' ∉ t ∧ '>' ∉ t

end Spec
end Bm.Cli
