import Verif.Model.ExprSyntax
import Verif.Model.Data

/-!
# Model of `Expression` and `P4Objects::build_expression`

`/repo/src/bm_sim/expressions.cpp`, `/repo/src/bm_sim/P4Objects.cpp:156-284`.  An expression becomes a
list of operations for a machine with five stacks and a vector of temporaries; a data stack holds
pointers, here `Ref`.  Popping an empty stack, using an object of the wrong kind, indexing outside a
vector, a failed `assert` and an exception are `none`.  `enable_arith` is not modelled: whether a
field takes part in arithmetic is part of the packet state.
-/

namespace Bm.Ex

/-- `EQ_DATA` ... `LET_DATA`.  `/repo/src/bm_sim/expressions.cpp:614-648`. -/
inductive CmpOp where
  | eq | neq | ord (o : OrdOp)
deriving DecidableEq, Repr

/-- `Op`: the operation codes with their operands; `dest` is `data_dest_index`.
`/repo/include/bm/bm_sim/expressions.h:35-56,83-130`. -/
inductive Op where
  | loadField (h off : Nat)
  | loadHeader (h : Nat)
  | loadHeaderStack (s : Nat)
  | loadLastField (s off : Nat)
  | loadUnion (u : Nat)
  | loadUnionStack (s : Nat)
  | loadBool (b : Bool)
  | loadConst (k : Nat)
  | loadLocal (k : Nat)
  | loadRegRef (a i : Nat)
  | loadRegGen (a : Nat)
  | accessField (off : Nat)
  | accessUnionHeader (off : Nat)
  | bin (o : BinOp) (dest : Nat)
  | cmp (o : CmpOp)
  | eqHeader (negated : Bool)
  | eqUnion (negated : Bool)
  | eqBool (negated : Bool)
  | and
  | or
  | not
  | bitNeg (dest : Nat)
  | validHeader
  | validUnion
  | ternary
  | skip (n : Nat)
  | d2b
  | b2d (dest : Nat)
  | derefHeaderStack
  | derefUnionStack
  | lastStackIndex (dest : Nat)
  | sizeStack (dest : Nat)
deriving DecidableEq, Repr

/-- `Expression`, data members.  `/repo/include/bm/bm_sim/expressions.h:191-196`. -/
structure Code where
  ops : List Op := []
  consts : List Int := []
deriving DecidableEq, Repr

/-! ## Building the operation list -/

namespace Code

/-- `push_back_op` and the other functions that add one operation.
`/repo/src/bm_sim/expressions.cpp:213-269,280-311,356-370`. -/
def push (x : Code) (op : Op) : Code := { x with ops := x.ops ++ [op] }

/-- `push_back_load_const`.  `/repo/src/bm_sim/expressions.cpp:271-278`. -/
def pushConst (x : Code) (v : Int) : Code :=
  let consts := x.consts ++ [v]
  { ops := x.ops ++ [.loadConst (consts.length - 1)], consts }

/-- The adjustment of the constant offsets in `append_expression`.
`/repo/src/bm_sim/expressions.cpp:320-321`. -/
def shift (k : Nat) : Op → Op
  | .loadConst i => .loadConst (i + k)
  | op => op

/-- `append_expression`.  `/repo/src/bm_sim/expressions.cpp:313-325`. -/
def append (x e : Code) : Code :=
  { ops := x.ops ++ e.ops.map (shift x.consts.length), consts := x.consts ++ e.consts }

/-- `push_back_ternary_op`.  `/repo/src/bm_sim/expressions.cpp:342-354`. -/
def pushTernary (x e1 e2 : Code) : Code :=
  ((((x.push .ternary).push (.skip (e1.ops.length + 1))).append e1).push
    (.skip e2.ops.length)).append e2

end Code

/-- `get_eq_opcode`, `get_neq_opcode`.  `/repo/src/bm_sim/expressions.cpp:97-131`. -/
def eqOp (negated : Bool) : Ty → Option Op
  | .data => some (.cmp (if negated then .neq else .eq))
  | .header => some (.eqHeader negated)
  | .bool => some (.eqBool negated)
  | .union => some (.eqUnion negated)
  | _ => none

/-- `build_expression`.  The types that are returned are those of `get_opcode_type`,
`/repo/src/bm_sim/expressions.cpp:135-200`; `access_union_header` pushes `ACCESS_FIELD`, as in the
code.  `/repo/src/bm_sim/P4Objects.cpp:156-284`. -/
def build : Expr → Code → Option (Code × Ty)
  | .header h, x => some (x.push (.loadHeader h), .header)
  | .field h off, x => some (x.push (.loadField h off), .data)
  | .bool b, x => some (x.push (.loadBool b), .bool)
  | .const v, x => some (x.pushConst v, .data)
  | .local k, x => some (x.push (.loadLocal k), .data)
  | .regRef a i, x => some (x.push (.loadRegRef a i), .data)
  | .regGen a i, x => do
    let (x, _) ← build i x
    return (x.push (.loadRegGen a), .data)
  | .headerStack s, x => some (x.push (.loadHeaderStack s), .headerStack)
  | .stackField s off, x => some (x.push (.loadLastField s off), .data)
  | .union u, x => some (x.push (.loadUnion u), .union)
  | .unionStack s, x => some (x.push (.loadUnionStack s), .unionStack)
  | .cond c l r, x => do
    let (x, _) ← build c x
    let (e1, tl) ← build l {}
    let (e2, tr) ← build r {}
    if tl = tr then return (x.pushTernary e1 e2, tl) else none
  | .eq negated l r, x => do
    let (x, tl) ← build l x
    let (x, tr) ← build r x
    if tl = tr then return (x.push (← eqOp negated tl), .bool) else none
  | .accessField e off, x => do
    let (x, t) ← build e x
    if t = .header then return (x.push (.accessField off), .data) else none
  | .accessUnionHeader e off, x => do
    let (x, t) ← build e x
    if t = .union then return (x.push (.accessField off), .header) else none
  | .arith o l r, x => do
    let (x, _) ← build l x
    let (x, _) ← build r x
    return (x.push (.bin o 0), .data)
  | .unary minus e, x => do
    let (x, _) ← build e (x.pushConst 0)
    return (x.push (.bin (if minus then .sub else .add) 0), .data)
  | .ord o l r, x => do
    let (x, _) ← build l x
    let (x, _) ← build r x
    return (x.push (.cmp (.ord o)), .bool)
  | .and l r, x => do
    let (x, _) ← build l x
    let (x, _) ← build r x
    return (x.push .and, .bool)
  | .or l r, x => do
    let (x, _) ← build l x
    let (x, _) ← build r x
    return (x.push .or, .bool)
  | .not e, x => do
    let (x, _) ← build e x
    return (x.push .not, .bool)
  | .bitNeg e, x => do
    let (x, _) ← build e x
    return (x.push (.bitNeg 0), .data)
  | .valid e, x => do
    let (x, _) ← build e x
    return (x.push .validHeader, .bool)
  | .validUnion e, x => do
    let (x, _) ← build e x
    return (x.push .validUnion, .bool)
  | .d2b e, x => do
    let (x, _) ← build e x
    return (x.push .d2b, .bool)
  | .b2d e, x => do
    let (x, _) ← build e x
    return (x.push (.b2d 0), .data)
  | .derefHeader s i, x => do
    let (x, _) ← build s x
    let (x, _) ← build i x
    return (x.push .derefHeaderStack, .header)
  | .derefUnion s i, x => do
    let (x, _) ← build s x
    let (x, _) ← build i x
    return (x.push .derefUnionStack, .union)
  | .lastIndex s, x => do
    let (x, _) ← build s x
    return (x.push (.lastStackIndex 0), .data)
  | .size s, x => do
    let (x, _) ← build s x
    return (x.push (.sizeStack 0), .data)

/-! ## Assigning the temporaries -/

/-- The variables `registers_curr` and `new_registers`.  `/repo/src/bm_sim/expressions.cpp:899-900`. -/
structure Regs where
  curr : Nat := 0
  new : List Nat := []
deriving DecidableEq, Repr

namespace Regs

/-- `registers_curr -= new_registers.top(); new_registers.pop();`. -/
def pop (r : Regs) : Option Regs :=
  match r.new with
  | t :: ts => if t ≤ r.curr then some ⟨r.curr - t, ts⟩ else none
  | [] => none

/-- `new_registers.push(1); registers_curr += 1;`. -/
def push1 (r : Regs) : Regs := ⟨r.curr + 1, 1 :: r.new⟩

/-- `new_registers.push(0);`. -/
def push0 (r : Regs) : Regs := ⟨r.curr, 0 :: r.new⟩

end Regs

/-- The `switch` of `assign_dest_registers`.  `/repo/src/bm_sim/expressions.cpp:902-989`. -/
def assignOp : Op → Regs → Option (Op × Regs)
  | .bin o _, r => do
    let r ← r.pop
    let r ← r.pop
    return (.bin o r.curr, r.push1)
  | .bitNeg _, r => do
    let r ← r.pop
    return (.bitNeg r.curr, r.push1)
  | .b2d _, r => some (.b2d r.curr, r.push1)
  | .lastStackIndex _, r => some (.lastStackIndex r.curr, r.push1)
  | .sizeStack _, r => some (.sizeStack r.curr, r.push1)
  | .cmp o, r => do
    let r ← r.pop
    let r ← r.pop
    return (.cmp o, r)
  | .d2b, r => do return (.d2b, ← r.pop)
  | .derefHeaderStack, r => do return (.derefHeaderStack, ← r.pop)
  | .derefUnionStack, r => do return (.derefUnionStack, ← r.pop)
  | .loadConst k, r => some (.loadConst k, r.push0)
  | .loadLocal k, r => some (.loadLocal k, r.push0)
  | .loadField h off, r => some (.loadField h off, r.push0)
  | .loadLastField s off, r => some (.loadLastField s off, r.push0)
  | .loadRegRef a i, r => some (.loadRegRef a i, r.push0)
  | .accessField off, r => some (.accessField off, r.push0)
  | .loadRegGen a, r => do return (.loadRegGen a, (← r.pop).push0)
  | op, r => some (op, r)

/-- `assign_dest_registers`: the operations with their temporaries, and `registers_cnt`.
`/repo/src/bm_sim/expressions.cpp:896-995`. -/
def assign : List Op → Regs → Option (List Op × Regs × Nat)
  | [], r => some ([], r, 0)
  | op :: ops, r => do
    let (op, r) ← assignOp op r
    let (ops, r', cnt) ← assign ops r
    return (op :: ops, r', max r.curr cnt)

/-! ## Evaluation -/

/-- A `const Data *`. -/
inductive Ref where
  | field (h off : Nat)
  | const (k : Nat)
  | local (k : Nat)
  | reg (a i : Nat)
  | temp (r : Nat)
deriving DecidableEq, Repr

/-- `ExpressionTemps`; the top of a stack is the head of the list.  Stacks of headers and of unions
share a stack, the flag tells union stacks.  `/repo/src/bm_sim/expressions.cpp:392-485`. -/
structure St where
  temps : List Int
  data : List Ref := []
  bools : List Bool := []
  headers : List Nat := []
  stks : List (Bool × Nat) := []
  unions : List Nat := []
deriving DecidableEq, Repr

/-- `Field::get_value` of field `off` of header `h`.  `/repo/src/bm_sim/fields.cpp`, see
`Verif.Model.Field`. -/
def loadField (env : Env) (h off : Nat) : Option Int := do
  let hd ← env.phv.headers[h]?
  let f ← hd.fields[off]?
  return f.getValue (env.rz && !hd.isValid && !f.hidden)

/-- `get_value` through a pointer. -/
def load (env : Env) (consts temps : List Int) : Ref → Option Int
  | .field h off => loadField env h off
  | .const k => consts[k]?
  | .local k => env.locals[k]?
  | .reg a i => do (← env.regs[a]?)[i]?
  | .temp r => temps[r]?

/-- `Data::arith`. -/
def isArith (env : Env) : Ref → Bool
  | .field h off =>
    match env.phv.headers[h]? with
    | some hd => (hd.fields[off]?).any fun f => f.arith
    | none => false
  | _ => true

/-- `assert(arith)` followed by `get_value`, as in all operators of `Data` except `test_eq`.
`/repo/include/bm/bm_sim/data.h:178-412`. -/
def get (env : Env) (consts temps : List Int) (r : Ref) : Option Int :=
  if isArith env r then load env consts temps r else none

/-- `get<size_t>`; a negative value throws, larger values are not modelled.
`/repo/include/bm/bm_sim/data.h:175-181`. -/
def toSize (v : Int) : Option Nat := if 0 ≤ v ∧ v < 2 ^ 64 then some v.toNat else none

/-- The operators of `Data`.  `/repo/src/bm_sim/expressions.cpp:565-612,703-722,749-768`. -/
def binOp : BinOp → Int → Int → Option Int
  | .add, a, b => some (Data.add a b)
  | .sub, a, b => some (Data.sub a b)
  | .mod, a, b => Data.mod a b
  | .div, a, b => Data.divide a b
  | .mul, a, b => some (Data.multiply a b)
  | .shl, a, b => Data.shiftLeft a b
  | .shr, a, b => Data.shiftRight a b
  | .and, a, b => some (Data.bitAnd a b)
  | .or, a, b => some (Data.bitOr a b)
  | .xor, a, b => some (Data.bitXor a b)
  | .twoComp, a, b => Data.twoCompMod a b
  | .usat, a, b => Data.usatCast a b
  | .sat, a, b => Data.satCast a b

/-- The comparison operators of `Data`.  `/repo/include/bm/bm_sim/data.h:378-412`. -/
def cmpOp : CmpOp → Int → Int → Bool
  | .eq, a, b => a == b
  | .neq, a, b => !(a == b)
  | .ord .gt, a, b => a > b
  | .ord .lt, a, b => a < b
  | .ord .ge, a, b => a ≥ b
  | .ord .le, a, b => a ≤ b

/-- `HeaderUnion::cmp`.  `/repo/src/bm_sim/header_unions.cpp:16-21`. -/
def unionCmp (p : Phv) (x y : HUnion) : Option Bool :=
  if x.valid && y.valid && x.idx == y.idx then do
    (← p.headers[← x.members[x.idx]?]?).cmp (← p.headers[← y.members[x.idx]?]?)
  else some false

/-- `get_count` of a stack of either kind.  `/repo/src/bm_sim/expressions.cpp:789-799`: the pointer is
cast to `HeaderStack` for both kinds, `get_count` is virtual. -/
def stackCount (env : Env) : Bool × Nat → Option Nat
  | (false, s) => do return (← env.phv.hstacks[s]?).next
  | (true, s) => do return (← env.phv.unionStacks[s]?).next

namespace St

/-- Writing `data_temps[dest]` and pushing its address. -/
def store (st : St) (dest : Nat) (v : Int) : Option St :=
  if dest < st.temps.length then
    some { st with temps := st.temps.set dest v, data := .temp dest :: st.data }
  else none

/-- `pop_data`.  `/repo/src/bm_sim/expressions.cpp:423-427`. -/
def popData (st : St) : Option (Ref × St) :=
  match st.data with
  | r :: rs => some (r, { st with data := rs })
  | [] => none

/-- `pop_bool`.  `/repo/src/bm_sim/expressions.cpp:413-417`. -/
def popBool (st : St) : Option (Bool × St) :=
  match st.bools with
  | b :: bs => some (b, { st with bools := bs })
  | [] => none

/-- `pop_header`.  `/repo/src/bm_sim/expressions.cpp:433-437`. -/
def popHeader (st : St) : Option (Nat × St) :=
  match st.headers with
  | h :: hs => some (h, { st with headers := hs })
  | [] => none

/-- `pop_stack`.  `/repo/src/bm_sim/expressions.cpp:443-455`. -/
def popStack (st : St) : Option ((Bool × Nat) × St) :=
  match st.stks with
  | s :: ss => some (s, { st with stks := ss })
  | [] => none

/-- `pop_union`.  `/repo/src/bm_sim/expressions.cpp:461-465`. -/
def popUnion (st : St) : Option (Nat × St) :=
  match st.unions with
  | u :: us => some (u, { st with unions := us })
  | [] => none

end St

/-- The `switch` of `eval_`: what is added to the loop variable, and the new state.
`/repo/src/bm_sim/expressions.cpp:506-810`. -/
def step (env : Env) (consts : List Int) : Op → St → Option (Nat × St)
  | .loadField h off, st => do
    let _ ← loadField env h off
    return (0, { st with data := .field h off :: st.data })
  | .loadHeader h, st => do
    let _ ← env.phv.headers[h]?
    return (0, { st with headers := h :: st.headers })
  | .loadHeaderStack s, st => do
    let _ ← env.phv.hstacks[s]?
    return (0, { st with stks := (false, s) :: st.stks })
  | .loadLastField s off, st => do
    let hs ← env.phv.hstacks[s]?
    if hs.next = 0 then none
    else do
      let h ← hs.elements[hs.next - 1]?
      let _ ← loadField env h off
      return (0, { st with data := .field h off :: st.data })
  | .loadUnion u, st => do
    let _ ← env.phv.unions[u]?
    return (0, { st with unions := u :: st.unions })
  | .loadUnionStack s, st => do
    let _ ← env.phv.unionStacks[s]?
    return (0, { st with stks := (true, s) :: st.stks })
  | .loadBool b, st => some (0, { st with bools := b :: st.bools })
  | .loadConst k, st => do
    let _ ← consts[k]?
    return (0, { st with data := .const k :: st.data })
  | .loadLocal k, st => do
    let _ ← env.locals[k]?
    return (0, { st with data := .local k :: st.data })
  | .loadRegRef a i, st => do
    let _ ← (← env.regs[a]?)[i]?
    return (0, { st with data := .reg a i :: st.data })
  | .loadRegGen a, st => do
    let (rd, st) ← st.popData
    let i ← toSize (← get env consts st.temps rd)
    let _ ← (← env.regs[a]?)[i]?
    return (0, { st with data := .reg a i :: st.data })
  | .accessField off, st => do
    let (h, st) ← st.popHeader
    let _ ← loadField env h off
    return (0, { st with data := .field h off :: st.data })
  | .accessUnionHeader off, st => do
    let (u, st) ← st.popUnion
    return (0, { st with headers := (← (← env.phv.unions[u]?).members[off]?) :: st.headers })
  | .bin o dest, st => do
    let (rd, st) ← st.popData
    let (ld, st) ← st.popData
    let v ← binOp o (← get env consts st.temps ld) (← get env consts st.temps rd)
    return (0, ← st.store dest v)
  | .cmp o, st => do
    let (rd, st) ← st.popData
    let (ld, st) ← st.popData
    let b := cmpOp o (← get env consts st.temps ld) (← get env consts st.temps rd)
    return (0, { st with bools := b :: st.bools })
  | .eqHeader negated, st => do
    let (rh, st) ← st.popHeader
    let (lh, st) ← st.popHeader
    let b ← (← env.phv.headers[lh]?).cmp (← env.phv.headers[rh]?)
    return (0, { st with bools := (if negated then !b else b) :: st.bools })
  | .eqUnion negated, st => do
    let (ru, st) ← st.popUnion
    let (lu, st) ← st.popUnion
    let b ← unionCmp env.phv (← env.phv.unions[lu]?) (← env.phv.unions[ru]?)
    return (0, { st with bools := (if negated then !b else b) :: st.bools })
  | .eqBool negated, st => do
    let (rb, st) ← st.popBool
    let (lb, st) ← st.popBool
    return (0, { st with bools := (if negated then lb != rb else lb == rb) :: st.bools })
  | .and, st => do
    let (rb, st) ← st.popBool
    let (lb, st) ← st.popBool
    return (0, { st with bools := (lb && rb) :: st.bools })
  | .or, st => do
    let (rb, st) ← st.popBool
    let (lb, st) ← st.popBool
    return (0, { st with bools := (lb || rb) :: st.bools })
  | .not, st => do
    let (rb, st) ← st.popBool
    return (0, { st with bools := (!rb) :: st.bools })
  | .bitNeg dest, st => do
    let (rd, st) ← st.popData
    return (0, ← st.store dest (Data.bitNeg (← get env consts st.temps rd)))
  | .validHeader, st => do
    let (rh, st) ← st.popHeader
    return (0, { st with bools := (← env.phv.headers[rh]?).isValid :: st.bools })
  | .validUnion, st => do
    let (ru, st) ← st.popUnion
    return (0, { st with bools := (← env.phv.unions[ru]?).valid :: st.bools })
  | .ternary, st => do
    let (rb, st) ← st.popBool
    return (if rb then 1 else 0, st)
  | .skip n, st => some (n, st)
  | .d2b, st => do
    let (rd, st) ← st.popData
    let b := !((← load env consts st.temps rd) == 0)
    return (0, { st with bools := b :: st.bools })
  | .b2d dest, st => do
    let (rb, st) ← st.popBool
    return (0, ← st.store dest (if rb then 1 else 0))
  | .derefHeaderStack, st => do
    let (rd, st) ← st.popData
    let (s, st) ← st.popStack
    if s.1 then none
    else do
      let h ← (← env.phv.hstacks[s.2]?).elements[← toSize (← get env consts st.temps rd)]?
      return (0, { st with headers := h :: st.headers })
  | .derefUnionStack, st => do
    let (rd, st) ← st.popData
    let (s, st) ← st.popStack
    if s.1 then do
      let u ← (← env.phv.unionStacks[s.2]?).elements[← toSize (← get env consts st.temps rd)]?
      return (0, { st with unions := u :: st.unions })
    else none
  | .lastStackIndex dest, st => do
    let (s, st) ← st.popStack
    let n ← stackCount env s
    return (0, ← st.store dest (if n = 0 then 2 ^ 64 - 1 else n - 1))
  | .sizeStack dest, st => do
    let (s, st) ← st.popStack
    return (0, ← st.store dest (← stackCount env s))

/-- The loop of `eval_`.  The second argument is the number of operations still to be skipped: adding
`n` to the loop variable skips the next `n` operations.  `/repo/src/bm_sim/expressions.cpp:504-811`. -/
def run (env : Env) (consts : List Int) : List Op → Nat → St → Option St
  | [], _, st => some st
  | _ :: ops, n + 1, st => run env consts ops n st
  | op :: ops, 0, st => do
    let (n, st) ← step env consts op st
    run env consts ops n st

/-- An expression after `Expression::build`.  `/repo/src/bm_sim/expressions.cpp:372-376`. -/
structure Built where
  ops : List Op
  consts : List Int
  cnt : Nat
deriving DecidableEq, Repr

/-- Building an expression from the configuration, including the type.
`/repo/src/bm_sim/P4Objects.cpp:156-284`, `/repo/src/bm_sim/expressions.cpp:372-376`. -/
def compile (e : Expr) : Option (Built × Ty) := do
  let (x, t) ← build e {}
  let (ops, _, cnt) ← assign x.ops {}
  return (⟨ops, x.consts, cnt⟩, t)

/-- `prepare`: the temporaries left by earlier evaluations, extended to `data_registers_cnt`.
`/repo/src/bm_sim/expressions.cpp:396-407`. -/
def prepare (old : List Int) (cnt : Nat) : St :=
  { temps := old ++ List.replicate (cnt - old.length) 0 }

/-- `eval_` on the temporaries left by earlier evaluations of the thread.
`/repo/src/bm_sim/expressions.cpp:487-812`. -/
def eval (env : Env) (old : List Int) (b : Built) : Option St :=
  run env b.consts b.ops 0 (prepare old b.cnt)

/-- `eval_bool`.  `/repo/src/bm_sim/expressions.cpp:814-824`. -/
def evalBool (env : Env) (old : List Int) (b : Built) : Option Bool :=
  if b.ops = [] then some false else do return (← (← eval env old b).popBool).1

/-- `eval_arith`, both versions: the result is a copy of the number.  (Copying a field that does not
take part in arithmetic would give 0 or the value, depending on the version; not modelled.)
`/repo/src/bm_sim/expressions.cpp:826-844`. -/
def evalArith (env : Env) (old : List Int) (b : Built) : Option Int :=
  if b.ops = [] then some 0
  else do
    let (r, st) ← (← eval env old b).popData
    get env b.consts st.temps r

/-- `eval_arith_lvalue`: the place the result is stored.  `/repo/src/bm_sim/expressions.cpp:853-859`. -/
def evalLvalue (env : Env) (old : List Int) (b : Built) : Option Ref :=
  if b.ops = [] then none else do return (← (← eval env old b).popData).1

/-- `eval_header`.  `/repo/src/bm_sim/expressions.cpp:861-867`. -/
def evalHeader (env : Env) (old : List Int) (b : Built) : Option Nat :=
  if b.ops = [] then none else do return (← (← eval env old b).popHeader).1

/-- `eval_header_stack`, `eval_header_union_stack`.  `/repo/src/bm_sim/expressions.cpp:869-875,885-892`. -/
def evalStack (env : Env) (old : List Int) (b : Built) : Option (Bool × Nat) :=
  if b.ops = [] then none else do return (← (← eval env old b).popStack).1

/-- `eval_header_union`.  `/repo/src/bm_sim/expressions.cpp:877-883`. -/
def evalUnion (env : Env) (old : List Int) (b : Built) : Option Nat :=
  if b.ops = [] then none else do return (← (← eval env old b).popUnion).1

end Bm.Ex
