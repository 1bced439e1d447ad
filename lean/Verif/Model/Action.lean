import Verif.Spec.Action

/-!
# Actions: building and executing

`ActionFn`, `ActionFnEntry`, `ActionParam` of `/repo/src/bm_sim/actions.cpp` and `/repo/include/bm/bm_sim/actions.h`,
and the part of the loader that builds actions.  The arguments of all calls of an action are in one vector; every call
has an offset into it.  Elements of lists are in a second vector.  Values of expressions are put into a vector of
temporaries that belongs to the thread, and the primitive gets references into that vector.

Simplifications: parameters that need no temporary and belong to no pool of the action (fields, headers, arrays,
registers, calculations, externs) are `named`; a register with a computed index uses temporary 0, which no expression
uses.  An expression is passed as `const Data &` (not as a reference to what it denotes).
-/

namespace Bm.Act
variable {σ X E : Type}

/-- `ActionParam`.  `/repo/include/bm/bm_sim/actions.h:166-258`. -/
inductive Par (X E : Type)
  | const (off : Nat)
  | data (off : Nat)
  | expr (off : Nat) (e : E)
  | named (x : X)
  | str (i : Nat)
  | vec (s e : Nat)
  | fields (s e : Nat)
deriving DecidableEq

/-- `ActionFn`.  `/repo/include/bm/bm_sim/actions.h:727-796`; `nbTmps` is the static member. -/
structure Fn (σ X E : Type) where
  prims : List (Prim σ X × Nat)
  params : List (Par X E)
  sub : List (Par X E)
  consts : List Int
  strs : List String
  nparams : Nat
  nbTmps : Nat

/-- `ActionFn::ActionFn`.  `/repo/src/bm_sim/actions.cpp:54-62`. -/
def Fn.init (nparams nbTmps : Nat) : Fn σ X E := ⟨[], [], [], [], [], nparams, nbTmps⟩

/-- `params.push_back(param)`. -/
def Fn.push (f : Fn σ X E) (p : Par X E) : Fn σ X E := { f with params := f.params ++ [p] }

/-- `parameter_push_back_const`.  `/repo/src/bm_sim/actions.cpp:114-121`. -/
def Fn.pushConst (f : Fn σ X E) (v : Int) : Fn σ X E :=
  { f with consts := f.consts ++ [v] }.push (.const f.consts.length)

/-- Offset of the temporary of an expression parameter. -/
def Par.tmp : Par X E → Option Nat
  | .expr off _ => some off
  | _ => none

/-- `parameter_push_back_expression`.  `/repo/src/bm_sim/actions.cpp:195-213`. -/
def Fn.pushExpr (f : Fn σ X E) (e : E) : Option (Fn σ X E) :=
  let n := 1 + (f.params.filterMap Par.tmp).length
  if n ≤ f.nbTmps then some ({ f with nbTmps := if n = f.nbTmps then f.nbTmps + 1 else f.nbTmps }.push (.expr n e))
  else none

/-- The pointers to strings are computed again.  `/repo/src/bm_sim/actions.cpp:261-262`. -/
def refresh : Nat → List (Par X E) → List (Par X E)
  | _, [] => []
  | k, .str _ :: l => .str k :: refresh (k + 1) l
  | k, p :: l => p :: refresh k l

/-- Index of the string of a parameter. -/
def Par.strIdx : Par X E → Option Nat
  | .str i => some i
  | _ => none

/-- `parameter_push_back_string`.  `/repo/src/bm_sim/actions.cpp:254-268`. -/
def Fn.pushStr (f : Fn σ X E) (s : String) : Option (Fn σ X E) :=
  if f.strs.length = (f.params.filterMap Par.strIdx).length then
    some ({ f with strs := f.strs ++ [s], params := refresh 0 f.params }.push (.str f.strs.length))
  else none

/-- `params.swap(sub_params)`. -/
def Fn.swap (f : Fn σ X E) : Fn σ X E := { f with params := f.sub, sub := f.params }

/-- `parameter_start_vector`.  `/repo/src/bm_sim/actions.cpp:270-282`. -/
def Fn.startVec (f : Fn σ X E) : Fn σ X E := (f.push (.vec f.sub.length f.sub.length)).swap

/-- `parameter_end_vector`.  `/repo/src/bm_sim/actions.cpp:284-291`. -/
def Fn.endVec (f : Fn σ X E) : Option (Fn σ X E) :=
  match f.swap.params.getLast? with
  | some (.vec s _) => some { f.swap with params := f.swap.params.dropLast ++ [.vec s f.swap.sub.length] }
  | _ => none

/-- `parameter_start_field_list`.  `/repo/src/bm_sim/actions.cpp:293-301`. -/
def Fn.startFields (f : Fn σ X E) : Fn σ X E := (f.push (.fields f.sub.length f.sub.length)).swap

/-- `parameter_end_field_list`.  `/repo/src/bm_sim/actions.cpp:303-310`. -/
def Fn.endFields (f : Fn σ X E) : Option (Fn σ X E) :=
  match f.swap.params.getLast? with
  | some (.fields s _) => some { f.swap with params := f.swap.params.dropLast ++ [.fields s f.swap.sub.length] }
  | _ => none

/-- `push_back_primitive`.  `/repo/src/bm_sim/actions.cpp:312-321`. -/
def Fn.pushPrim (f : Fn σ X E) (p : Prim σ X) : Fn σ X E :=
  { f with prims := f.prims ++ [(p, match f.prims.getLast? with
                                    | none => 0
                                    | some (q, off) => off + q.nparams)] }

/-- `process_single_param`, for parameters that are no lists.  `/repo/src/bm_sim/P4Objects.cpp:318-455`. -/
def Fn.loadAtom (f : Fn σ X E) : Atom X E → Option (Fn σ X E)
  | .hex v => some (f.pushConst v)
  | .data i => if i < f.nparams then some (f.push (.data i)) else none
  | .expr e => f.pushExpr e
  | .named x => some (f.push (.named x))
  | .str s => f.pushStr s

/-- The loop over the elements of a list.  `/repo/src/bm_sim/P4Objects.cpp:329-331`. -/
def Fn.loadAtoms : Fn σ X E → List (Atom X E) → Option (Fn σ X E)
  | f, [] => some f
  | f, a :: l => do Fn.loadAtoms (← f.loadAtom a) l

/-- `process_single_param`.  `/repo/src/bm_sim/P4Objects.cpp:318-455`. -/
def Fn.loadSrc (f : Fn σ X E) : Src X E → Option (Fn σ X E)
  | .atom a => f.loadAtom a
  | .vec l => do (← f.startVec.loadAtoms l).endVec
  | .fields l => do (← f.startFields.loadAtoms (l.map .named)).endFields

/-- The loop over the parameters of a call.  `/repo/src/bm_sim/P4Objects.cpp:313-315`. -/
def Fn.loadSrcs : Fn σ X E → List (Src X E) → Option (Fn σ X E)
  | f, [] => some f
  | f, a :: l => do Fn.loadSrcs (← f.loadSrc a) l

/-- `add_primitive_to_action`.  `/repo/src/bm_sim/P4Objects.cpp:286-316`. -/
def Fn.loadCall (f : Fn σ X E) (c : Call σ X E) : Option (Fn σ X E) :=
  if c.args.length = c.prim.nparams then (f.pushPrim c.prim).loadSrcs c.args else none

/-- All calls of an action.  `/repo/src/bm_sim/P4Objects.cpp:1438-1442`. -/
def Fn.load : Fn σ X E → List (Call σ X E) → Option (Fn σ X E)
  | f, [] => some f
  | f, c :: l => do Fn.load (← f.loadCall c) l

/-! ## Execution -/

variable (env : Env σ X E) (f : Fn σ X E) (adata : List Int) (s : σ)

/-- What `to<…>` gives: a reference to a value that stays where it is, a reference to a temporary, or a copy. -/
inductive Ref (X : Type)
  | val (v : Int)
  | tmp (i : Nat)
  | named (x : X)
  | str (s : String)
  | nums (l : List Int)
  | flds (l : List (X × Int))

/-- The vector of temporaries grows if needed.  Growing moves the vector; this is undefined if there already are
references into it (`live`).  `/repo/include/bm/bm_sim/actions.h:323-327`. -/
def growTemps (live : Bool) (temps : List Int) (off : Nat) : Option (List Int) :=
  if off < temps.length then some temps
  else if live then none
  else some (temps ++ List.replicate (off + 1 - temps.length) 0)

/-- The case `EXPRESSION` of `to<const Data &>`: the expression is evaluated into its temporary.
`/repo/include/bm/bm_sim/actions.h:323-330`. -/
def evalExpr (live : Bool) (temps : List Int) (off : Nat) (e : E) : Option (List Int) := do
  let temps ← growTemps live temps off
  return temps.set off (← env.ev e adata s)

/-- `to<const Data &>` as a value that is copied at once (elements of lists).
`/repo/include/bm/bm_sim/actions.h:303-337`. -/
def evalNum (live : Bool) (temps : List Int) : Par X E → Option (Int × List Int)
  | .const off => (f.consts[off]?).map fun v => (v, temps)
  | .data off => (adata[off]?).map fun v => (v, temps)
  | .expr off e => do
    let temps ← evalExpr env adata s live temps off e
    return (← temps[off]?, temps)
  | .named x => (env.rd x s).map fun v => (v, temps)
  | _ => none

/-- `to<const std::vector<Data>>`.  `/repo/include/bm/bm_sim/actions.h:531-546`. -/
def evalVec (live : Bool) : List Int → List (Par X E) → Option (List Int × List Int)
  | temps, [] => some ([], temps)
  | temps, p :: l => do
    let (v, temps) ← evalNum env f adata s live temps p
    let (vs, temps) ← evalVec live temps l
    return (v :: vs, temps)

/-- An element of `to<const std::vector<Field>>`.  `/repo/include/bm/bm_sim/actions.h:342-351`. -/
def evalField : Par X E → Option (X × Int)
  | .named x => (env.rd x s).map fun v => (x, v)
  | _ => none

/-- The elements `start .. end` of `sub_params`; an index that is out of range is undefined. -/
def Fn.slice (a b : Nat) : Option (List (Par X E)) :=
  if a ≤ b then if b ≤ f.sub.length then some ((f.sub.drop a).take (b - a)) else none else some []

/-- `ActionParam::to`.  `/repo/include/bm/bm_sim/actions.h:279-563`. -/
def evalPar (live : Bool) (temps : List Int) : Par X E → Option (Ref X × List Int)
  | .const off => (f.consts[off]?).map fun v => (.val v, temps)
  | .data off => (adata[off]?).map fun v => (.val v, temps)
  | .expr off e => (evalExpr env adata s live temps off e).map fun temps => (.tmp off, temps)
  | .named x => some (.named x, temps)
  | .str i => (f.strs[i]?).map fun t => (.str t, temps)
  | .vec a b => do
    let (vs, temps) ← evalVec env f adata s live temps (← f.slice a b)
    return (.nums vs, temps)
  | .fields a b => do return (.flds (← (← f.slice a b).mapM (evalField env s)), temps)

/-- A reference into the temporaries. -/
def Ref.isTmp : Ref X → Bool
  | .tmp _ => true
  | _ => false

/-- The conversion of all arguments of a call, in the order `order` (C++ does not fix one).
`/repo/include/bm/bm_sim/actions.h:587-609`. -/
def evalArgs (args : Nat → Option (Par X E)) : List Nat → List Int → List (Nat × Ref X) →
    Option (List (Nat × Ref X) × List Int)
  | [], temps, acc => some (acc, temps)
  | i :: order, temps, acc => do
    let (r, temps) ← evalPar env f adata s (acc.any fun x => x.2.isTmp) temps (← args i)
    evalArgs args order temps ((i, r) :: acc)

/-- What the primitive finds behind a reference. -/
def Ref.deref (temps : List Int) : Ref X → Option (Arg X)
  | .val v => some (.num v)
  | .tmp i => (temps[i]?).map .num
  | .named x => some (.named x)
  | .str t => some (.str t)
  | .nums l => some (.nums l)
  | .flds l => some (.flds l)

/-- The value of an argument of type `const Data &`. -/
def Arg.data (s : σ) : Arg X → Option Int
  | .num v => some v
  | .named x => env.rd x s
  | _ => none

/-- `get<int>`; what it gives for values that do not fit is not modelled.  `/repo/include/bm/bm_sim/data.h:176-181`. -/
def getInt (v : Int) : Option Int := if v < -2 ^ 31 ∨ 2 ^ 31 ≤ v then none else some v

/-- The member `offset` after `_jump_if_zero`.  `/repo/src/bm_sim/actions.cpp:496-501`. -/
def jumpIfZeroOffset (t o : Arg X) (s : σ) : Option Int := do
  if (← getInt (← t.data env s)) = 0 then getInt (← o.data env s) else return -1

/-- A primitive, and then `get_jump_offset`.  `/repo/src/bm_sim/actions.cpp:495-527`,
`/repo/include/bm/bm_sim/actions.h:621-623`. -/
def Prim.exec (p : Prim σ X) (args : List (Arg X)) (pc : Nat) (s : σ) : Option (Nat × σ) :=
  match p, args with
  | .op _ f, args => (f args s).map fun s' => (pc + 1, s')
  | .jumpIfZero, [t, o] => (jumpIfZeroOffset env t o s).map fun off => (if off < 0 then pc + 1 else off.toNat, s)
  | .jump, [o] => do
    let off ← getInt (← o.data env s)
    return ((BitVec.ofInt 64 off).toNat, s)
  | _, _ => none

/-- `ActionFnEntry::execute`, `n` iterations of the loop.  `/repo/src/bm_sim/actions.cpp:402-421`. -/
def Fn.run (order : Nat → List Nat) : Nat → Nat → List Int × σ → Option (Outcome (List Int × σ))
  | 0, pc, s => some (if pc < f.prims.length then .running pc s else .done s)
  | n + 1, pc, (temps, s) =>
    match f.prims[pc]? with
    | none => some (.done (temps, s))
    | some (p, off) => do
      let (acc, temps) ← evalArgs env f adata s (fun i => f.params[off + i]?) (order p.nparams) temps []
      let args ← (List.range p.nparams).mapM fun i => (acc.lookup i).bind (Ref.deref temps)
      let (pc', s') ← p.exec env args pc s
      Fn.run order n pc' (temps, s')

end Bm.Act
