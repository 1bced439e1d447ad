import Mathlib.Data.List.Basic

/-!
# Specification of actions (C65)

An action of the program is a list of calls of primitives.  The arguments are written in the program; the meaning of a
call is that the primitive gets the values of its arguments at the time of the call.  `X` are the objects that can be
named (fields, headers, stacks, arrays), `E` the expressions, `σ` the states of packet and switch.
-/

namespace Bm.Act

/-- An argument that is no list. -/
inductive Atom (X E : Type)
  | hex (v : Int)
  | data (i : Nat)
  | expr (e : E)
  | named (x : X)
  | str (s : String)
deriving DecidableEq

/-- An argument. -/
inductive Src (X E : Type)
  | atom (a : Atom X E)
  | vec (l : List (Atom X E))
  | fields (l : List X)

/-- What a primitive gets: a value, a reference to an object, a string, a list of values, copies of fields. -/
inductive Arg (X : Type)
  | num (v : Int)
  | named (x : X)
  | str (s : String)
  | nums (l : List Int)
  | flds (l : List (X × Int))
deriving DecidableEq

/-- Values of objects and of expressions (given the parameters of the action). -/
structure Env (σ X E : Type) where
  rd : X → σ → Option Int
  ev : E → List Int → σ → Option Int

/-- Primitives. -/
inductive Prim (σ X : Type)
  | op (nparams : Nat) (exec : List (Arg X) → σ → Option σ)
  | jumpIfZero
  | jump

/-- Number of arguments. -/
def Prim.nparams {σ X : Type} : Prim σ X → Nat
  | .op n _ => n
  | .jumpIfZero => 2
  | .jump => 1

/-- A call of a primitive. -/
structure Call (σ X E : Type) where
  prim : Prim σ X
  args : List (Src X E)

variable {σ X E : Type} (env : Env σ X E) (adata : List Int)

/-- The value of an argument. -/
def Atom.num (s : σ) : Atom X E → Option Int
  | .hex v => some v
  | .data i => adata[i]?
  | .expr e => env.ev e adata s
  | .named x => env.rd x s
  | .str _ => none

/-- What the primitive gets for an argument. -/
def Src.arg (s : σ) : Src X E → Option (Arg X)
  | .atom (.hex v) => some (.num v)
  | .atom (.data i) => adata[i]?.map .num
  | .atom (.expr e) => (env.ev e adata s).map .num
  | .atom (.named x) => some (.named x)
  | .atom (.str t) => some (.str t)
  | .vec l => (l.mapM (Atom.num env adata s)).map .nums
  | .fields l => (l.mapM fun x => (env.rd x s).map fun v => (x, v)).map .flds

/-- The number an argument stands for; numbers that are no `int` are not considered. -/
def Arg.int (s : σ) (a : Arg X) : Option Int :=
  (match a with
   | .num v => some v
   | .named x => env.rd x s
   | _ => none).bind fun v => if -2 ^ 31 ≤ v ∧ v < 2 ^ 31 then some v else none

/-- A primitive and the number of the call to come next (`none`: the action ends).  The jumps go to the call with the
given number; a negative number makes `_jump_if_zero` go on with the next call, and `_jump` end the action. -/
def Prim.perform (p : Prim σ X) (args : List (Arg X)) (pc : Nat) (s : σ) : Option (Option Nat × σ) :=
  match p, args with
  | .op _ f, args => (f args s).map fun s' => (some (pc + 1), s')
  | .jumpIfZero, [t, o] => do
    if (← t.int env s) = 0 then
      let o ← o.int env s
      return (if o < 0 then some (pc + 1) else some o.toNat, s)
    else return (some (pc + 1), s)
  | .jump, [o] => do
    let o ← o.int env s
    return (if o < 0 then none else some o.toNat, s)
  | _, _ => none

/-- What there is after some number of steps. -/
inductive Outcome (α : Type)
  | done (s : α)
  | running (pc : Nat) (s : α)
deriving DecidableEq

/-- The same with another state. -/
def Outcome.map {α β : Type} (f : α → β) : Outcome α → Outcome β
  | .done s => .done (f s)
  | .running pc s => .running pc (f s)

/-- `n` steps of an action, starting with call `pc`; `none`: undefined. -/
def runCalls (calls : List (Call σ X E)) : Nat → Nat → σ → Option (Outcome σ)
  | 0, pc, s => some (if pc < calls.length then .running pc s else .done s)
  | n + 1, pc, s =>
    match calls[pc]? with
    | none => some (.done s)
    | some c => do
      let args ← c.args.mapM (Src.arg env adata s)
      match ← c.prim.perform env args pc s with
      | (none, s') => return .done s'
      | (some pc', s') => runCalls calls n pc' s'

/-- The argument is an expression. -/
def Src.IsExpr : Src X E → Prop
  | .atom (.expr _) => True
  | _ => False

/-- The argument is a list with an expression. -/
def Src.HasExpr : Src X E → Prop
  | .vec l => ∃ e, .expr e ∈ l
  | _ => False

/-- How many arguments of calls are expressions. -/
def Src.exprs : Src X E → Nat
  | .atom (.expr _) => 1
  | .vec l => (l.filter fun a => match a with | .expr _ => true | _ => false).length
  | _ => 0

/-- Arguments an action with `n` parameters may have: the parameters exist, and there are no strings in lists. -/
def Src.Fits (n : Nat) : Src X E → Prop
  | .atom (.data i) => i < n
  | .vec l => ∀ a ∈ l, (∀ i, a = .data i → i < n) ∧ ∀ t, a ≠ .str t
  | _ => True

/-- Calls with the right number of arguments. -/
def Call.Fits (n : Nat) (c : Call σ X E) : Prop := c.args.length = c.prim.nparams ∧ ∀ a ∈ c.args, a.Fits n

end Bm.Act
