import Verif.Model.ExprSyntax

/-!
# The value of an expression, by ordinary recursion

Written without operation lists, stacks and temporaries.  `none`: the expression has no value (it
reads a register, a header or a stack element that does not exist, divides by zero, shifts by a
negative number, reads a field on which arithmetic is not enabled, ...).  All operands must have a
value, also those of `and` and `or`; only the branch of a conditional that is not taken need not.
-/

namespace Bm.Ex.Spec

open Bm.Ex

/-- The type of an expression. -/
def ty : Expr → Option Ty
  | .header _ => some .header
  | .field _ _ | .const _ | .local _ | .regRef _ _ | .stackField _ _ => some .data
  | .bool _ => some .bool
  | .regGen _ i => if ty i = some .data then some .data else none
  | .headerStack _ => some .headerStack
  | .union _ => some .union
  | .unionStack _ => some .unionStack
  | .cond c l r => if ty c = some .bool ∧ ty l = ty r then ty l else none
  | .eq _ l r =>
    if ty l = ty r ∧ (ty l = some .data ∨ ty l = some .header ∨ ty l = some .bool ∨
      ty l = some .union) then some .bool else none
  | .accessField e _ => if ty e = some .header then some .data else none
  | .accessUnionHeader e _ => if ty e = some .union then some .header else none
  | .arith _ l r => if ty l = some .data ∧ ty r = some .data then some .data else none
  | .unary _ e | .bitNeg e => if ty e = some .data then some .data else none
  | .ord _ l r => if ty l = some .data ∧ ty r = some .data then some .bool else none
  | .and l r | .or l r => if ty l = some .bool ∧ ty r = some .bool then some .bool else none
  | .not e => if ty e = some .bool then some .bool else none
  | .valid e => if ty e = some .header then some .bool else none
  | .validUnion e => if ty e = some .union then some .bool else none
  | .d2b e => if ty e = some .data then some .bool else none
  | .b2d e => if ty e = some .bool then some .data else none
  | .derefHeader s i =>
    if ty s = some .headerStack ∧ ty i = some .data then some .header else none
  | .derefUnion s i =>
    if ty s = some .unionStack ∧ ty i = some .data then some .union else none
  | .lastIndex s | .size s =>
    if ty s = some .headerStack ∨ ty s = some .unionStack then some .data else none

/-- A value: a number (with the place it is stored, unless it was computed), a truth value, or one of
the objects of the packet state. -/
inductive Val where
  | data (v : Int) (loc : Option Loc)
  | bool (b : Bool)
  | header (h : Nat)
  | union (u : Nat)
  | headerStack (s : Nat)
  | unionStack (s : Nat)
deriving DecidableEq, Repr

/-- Reading a field. -/
def fieldVal (env : Env) (h off : Nat) : Option Val := do
  let hd ← env.phv.headers[h]?
  let f ← hd.fields[off]?
  let readable := hd.metadata || hd.valid || f.hidden || !env.rz
  if f.arith then return .data (if readable then f.value else 0) (some (.field h off)) else none

/-- Reading a register. -/
def regVal (env : Env) (a i : Nat) : Option Val := do
  return .data (← (← env.regs[a]?)[i]?) (some (.reg a i))

/-- The number of bits or positions a number stands for. -/
def count (bound : Nat) (v : Int) : Option Nat := if 0 ≤ v ∧ v < bound then some v.toNat else none

/-- The arithmetic operators. -/
def arith : BinOp → Int → Int → Option Int
  | .add, a, b => some (a + b)
  | .sub, a, b => some (a - b)
  | .mul, a, b => some (a * b)
  | .mod, a, b => if 0 ≤ a ∧ 0 < b then some (a % b) else none
  | .div, a, b => if 0 ≤ a ∧ 0 < b then some (a / b) else none
  | .shl, a, b => do return a * 2 ^ (← count (2 ^ 32) b)
  | .shr, a, b => do return a / 2 ^ (← count (2 ^ 32) b)
  | .and, a, b => some (a.land b)
  | .or, a, b => some (a.lor b)
  | .xor, a, b => some (a.xor b)
  | .twoComp, a, b => do
    let w ← count (2 ^ 32) b
    if w = 0 then none else return (a + 2 ^ (w - 1)) % 2 ^ w - 2 ^ (w - 1)
  | .usat, a, b => do
    let w ← count (2 ^ 32) b
    return max 0 (min a (2 ^ w - 1))
  | .sat, a, b => do
    let w ← count (2 ^ 32) b
    if w = 0 then none else return max (-2 ^ (w - 1)) (min a (2 ^ (w - 1) - 1))

/-- The orderings. -/
def ord : OrdOp → Int → Int → Bool
  | .gt, a, b => b < a
  | .lt, a, b => a < b
  | .ge, a, b => b ≤ a
  | .le, a, b => a ≤ b

/-- Equality of headers: same type, both valid, the same values. -/
def headerEq (x y : Header) : Option Bool :=
  if x.typeId = y.typeId ∧ (x.metadata ∨ x.valid) ∧ (y.metadata ∨ y.valid) then
    if ∀ f ∈ x.fields ++ y.fields, f.arith then
      some (x.fields.map (·.value) == y.fields.map (·.value))
    else none
  else some false

/-- Equality of unions: both have a valid header, the same one, and these are equal. -/
def unionEq (p : Phv) (x y : HUnion) : Option Bool :=
  if x.valid ∧ y.valid ∧ x.idx = y.idx then do
    headerEq (← p.headers[← x.members[x.idx]?]?) (← p.headers[← y.members[y.idx]?]?)
  else some false

/-- Equality of two values of the same type. -/
def eqVal (env : Env) : Val → Val → Option Bool
  | .data a _, .data b _ => some (a == b)
  | .bool a, .bool b => some (a == b)
  | .header x, .header y => do headerEq (← env.phv.headers[x]?) (← env.phv.headers[y]?)
  | .union x, .union y => do unionEq env.phv (← env.phv.unions[x]?) (← env.phv.unions[y]?)
  | _, _ => none

/-- The stack with a value. -/
def stackOf (env : Env) : Val → Option Stack
  | .headerStack s => env.phv.hstacks[s]?
  | .unionStack s => env.phv.unionStacks[s]?
  | _ => none

/-- The value of an expression. -/
def value (env : Env) : Expr → Option Val
  | .header h => do let _ ← env.phv.headers[h]?; return .header h
  | .field h off => fieldVal env h off
  | .bool b => some (.bool b)
  | .const v => some (.data v (some .const))
  | .local k => do return .data (← env.locals[k]?) (some (.local k))
  | .regRef a i => regVal env a i
  | .regGen a i => do
    match ← value env i with
    | .data v _ => regVal env a (← count (2 ^ 64) v)
    | _ => none
  | .headerStack s => do let _ ← env.phv.hstacks[s]?; return .headerStack s
  | .stackField s off => do
    let st ← env.phv.hstacks[s]?
    if st.next = 0 then none else fieldVal env (← st.elements[st.next - 1]?) off
  | .union u => do let _ ← env.phv.unions[u]?; return .union u
  | .unionStack s => do let _ ← env.phv.unionStacks[s]?; return .unionStack s
  | .cond c l r => do
    match ← value env c with
    | .bool true => value env l
    | .bool false => value env r
    | _ => none
  | .eq negated l r => do
    return .bool ((← eqVal env (← value env l) (← value env r)) != negated)
  | .accessField e off => do
    match ← value env e with
    | .header h => fieldVal env h off
    | _ => none
  | .accessUnionHeader e off => do
    match ← value env e with
    | .union u => do return .header (← (← env.phv.unions[u]?).members[off]?)
    | _ => none
  | .arith o l r => do
    match ← value env l, ← value env r with
    | .data a _, .data b _ => do return .data (← arith o a b) none
    | _, _ => none
  | .unary minus e => do
    match ← value env e with
    | .data a _ => some (.data (if minus then -a else a) none)
    | _ => none
  | .ord o l r => do
    match ← value env l, ← value env r with
    | .data a _, .data b _ => some (.bool (ord o a b))
    | _, _ => none
  | .and l r => do
    match ← value env l, ← value env r with
    | .bool a, .bool b => some (.bool (a && b))
    | _, _ => none
  | .or l r => do
    match ← value env l, ← value env r with
    | .bool a, .bool b => some (.bool (a || b))
    | _, _ => none
  | .not e => do
    match ← value env e with
    | .bool a => some (.bool (!a))
    | _ => none
  | .bitNeg e => do
    match ← value env e with
    | .data a _ => some (.data (-a - 1) none)
    | _ => none
  | .valid e => do
    match ← value env e with
    | .header h => do let x ← env.phv.headers[h]?; return .bool (x.metadata || x.valid)
    | _ => none
  | .validUnion e => do
    match ← value env e with
    | .union u => do return .bool (← env.phv.unions[u]?).valid
    | _ => none
  | .d2b e => do
    match ← value env e with
    | .data a _ => some (.bool (a != 0))
    | _ => none
  | .b2d e => do
    match ← value env e with
    | .bool a => some (.data (if a then 1 else 0) none)
    | _ => none
  | .derefHeader s i => do
    match ← value env s, ← value env i with
    | .headerStack s, .data v _ => do
      return .header (← (← env.phv.hstacks[s]?).elements[← count (2 ^ 64) v]?)
    | _, _ => none
  | .derefUnion s i => do
    match ← value env s, ← value env i with
    | .unionStack s, .data v _ => do
      return .union (← (← env.phv.unionStacks[s]?).elements[← count (2 ^ 64) v]?)
    | _, _ => none
  | .lastIndex s => do
    let st ← stackOf env (← value env s)
    if st.next = 0 then none else return .data (st.next - 1 : Nat) none
  | .size s => do return .data (← stackOf env (← value env s)).next none

end Bm.Ex.Spec
