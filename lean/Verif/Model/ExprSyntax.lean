import Verif.Model.Phv

/-!
# Expressions as they appear in the JSON configuration

The tree that `P4Objects::build_expression` walks, `/repo/src/bm_sim/P4Objects.cpp:156-284`, with the
operator names of `/repo/src/bm_sim/expressions.cpp:29-84`.  Names of objects are replaced by their
indices; constants by their values.
-/

namespace Bm.Ex

/-- `ExprType` without `UNKNOWN`.  `/repo/include/bm/bm_sim/expressions.h:58-60`. -/
inductive Ty where
  | data | header | headerStack | bool | union | unionStack
deriving DecidableEq, Repr

/-- Operators from two numbers to a number.  `/repo/src/bm_sim/expressions.cpp:40-46,62-64,69-71`. -/
inductive BinOp where
  | add | sub | mod | div | mul | shl | shr | and | or | xor | twoComp | usat | sat
deriving DecidableEq, Repr

/-- Ordering of two numbers.  `/repo/src/bm_sim/expressions.cpp:55-58`. -/
inductive OrdOp where
  | gt | lt | ge | le
deriving DecidableEq, Repr

/-- One JSON expression.  Unary `+` and `-` are the operators with a null left operand; the other
unary operators have their operand on the right.  `/repo/src/bm_sim/P4Objects.cpp:163-283`. -/
inductive Expr where
  | header (h : Nat)
  | field (h off : Nat)
  | bool (b : Bool)
  | const (v : Int)
  | local (k : Nat)
  | regRef (a i : Nat)
  | regGen (a : Nat) (idx : Expr)
  | headerStack (s : Nat)
  | stackField (s off : Nat)
  | union (u : Nat)
  | unionStack (s : Nat)
  | cond (c l r : Expr)
  | eq (negated : Bool) (l r : Expr)
  | accessField (e : Expr) (off : Nat)
  | accessUnionHeader (e : Expr) (off : Nat)
  | arith (o : BinOp) (l r : Expr)
  | unary (minus : Bool) (e : Expr)
  | ord (o : OrdOp) (l r : Expr)
  | and (l r : Expr)
  | or (l r : Expr)
  | not (e : Expr)
  | bitNeg (e : Expr)
  | valid (e : Expr)
  | validUnion (e : Expr)
  | d2b (e : Expr)
  | b2d (e : Expr)
  | derefHeader (s i : Expr)
  | derefUnion (s i : Expr)
  | lastIndex (s : Expr)
  | size (s : Expr)
deriving DecidableEq, Repr

/-- What an expression can read: the packet state, `ret_zero_on_invalid_hdr_read`, the action data
and the registers.  `/repo/include/bm/bm_sim/expressions.h`, arguments of `eval_`. -/
structure Env where
  phv : Phv
  rz : Bool := false
  locals : List Int := []
  regs : List (List Int) := []

/-- Where a number is stored, when it is not the result of an operator. -/
inductive Loc where
  | field (h off : Nat)
  | const
  | local (k : Nat)
  | reg (a i : Nat)
deriving DecidableEq, Repr

end Bm.Ex
