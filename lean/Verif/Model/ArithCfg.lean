import Verif.Model.Phv

/-!
# Model of which fields take part in arithmetic

`P4Objects` starts with arithmetic disabled for every field and enables it for what parameters of
primitives and expressions name (`/repo/src/bm_sim/P4Objects.cpp:208-280,340-456,698,2539-2585`); the
sets are kept by `PHVFactory` (`/repo/src/bm_sim/phv.cpp:243-320`).  A field without arithmetic has its
bytes set when it is extracted, but not its value.  Ids are positions; an unknown id makes `at` throw
(`none`).
-/

namespace Bm.ArithCfg

/-- Headers (number of fields, with the hidden one), unions, stacks of headers, stacks of unions. -/
structure Cfg where
  nfields : List Nat
  unions : List (List Nat)
  hstacks : List (List Nat)
  unionStacks : List (List Nat)
deriving Repr

/-- The pairs (header, field) of `arith_offsets`.  `/repo/include/bm/bm_sim/phv.h:332`. -/
abbrev Set := List (Nat × Nat)

/-- `PHVFactory::enable_field_arith`.  `/repo/src/bm_sim/phv.cpp:243-247`. -/
def enableField (c : Cfg) (a : Set) (h o : Nat) : Option Set :=
  if h < c.nfields.length then some ((h, o) :: a) else none

/-- `PHVFactory::enable_all_field_arith`.  `/repo/src/bm_sim/phv.cpp:249-255`. -/
def enableAll (c : Cfg) (a : Set) (h : Nat) : Option Set := do
  return a ++ (List.range (← c.nfields[h]?)).map (h, ·)

/-- `PHVFactory::enable_stack_field_arith`.  `/repo/src/bm_sim/phv.cpp:269-275`. -/
def enableStackField (c : Cfg) (a : Set) (s o : Nat) : Option Set := do
  (← c.hstacks[s]?).foldlM (fun a h => enableField c a h o) a

/-- `PHVFactory::enable_all_stack_field_arith`.  `/repo/src/bm_sim/phv.cpp:277-282`. -/
def enableStackAll (c : Cfg) (a : Set) (s : Nat) : Option Set := do
  (← c.hstacks[s]?).foldlM (enableAll c) a

/-- `PHVFactory::enable_union_stack_field_arith`.  `/repo/src/bm_sim/phv.cpp:284-293`. -/
def enableUnionStackField (c : Cfg) (a : Set) (s off o : Nat) : Option Set := do
  (← c.unionStacks[s]?).foldlM (fun a u => do enableField c a (← (← c.unions[u]?)[off]?) o) a

/-- `PHVFactory::enable_all_union_stack_field_arith` for one member.
`/repo/src/bm_sim/phv.cpp:295-303`. -/
def enableUnionStackAllAt (c : Cfg) (a : Set) (s off : Nat) : Option Set := do
  (← c.unionStacks[s]?).foldlM (fun a u => do enableAll c a (← (← c.unions[u]?)[off]?)) a

/-- `PHVFactory::enable_all_union_stack_field_arith`.  `/repo/src/bm_sim/phv.cpp:305-314`. -/
def enableUnionStackAll (c : Cfg) (a : Set) (s : Nat) : Option Set := do
  (← c.unionStacks[s]?).foldlM (fun a u => do (← c.unions[u]?).foldlM (enableAll c) a) a

/-- All pairs (position, element) of lists of lists. -/
def entries (l : List (List Nat)) : List (Nat × Nat × Nat) :=
  l.zipIdx.flatMap fun (m, u) => m.zipIdx.map fun (h, i) => (u, i, h)

/-- `header_id_to_union_pos`: `emplace` keeps the first.  `/repo/src/bm_sim/P4Objects.cpp:762-764`. -/
def unionPos (c : Cfg) (h : Nat) : Option (Nat × Nat) :=
  ((entries c.unions).find? (fun e => e.2.2 == h)).map fun e => (e.1, e.2.1)

/-- `header_id_to_stack_id`: the last assignment wins.  `/repo/src/bm_sim/P4Objects.cpp:720`. -/
def stackOf (c : Cfg) (h : Nat) : Option Nat :=
  ((entries c.hstacks).reverse.find? (fun e => e.2.2 == h)).map (·.1)

/-- `union_id_to_union_stack_id`: the last assignment wins.
`/repo/src/bm_sim/P4Objects.cpp:797-798`. -/
def unionStackOf (c : Cfg) (u : Nat) : Option Nat :=
  ((entries c.unionStacks).reverse.find? (fun e => e.2.2 == u)).map (·.1)

/-- The stack of unions of the header and its position in the union, if there is one. -/
def unionStackPos (c : Cfg) (h : Nat) : Option (Nat × Nat) := do
  let (u, off) ← unionPos c h
  return (← unionStackOf c u, off)

/-- The second half of `enable_arith`.  `/repo/src/bm_sim/P4Objects.cpp:2553-2560`. -/
def enableArithField' (c : Cfg) (a : Set) (h o : Nat) : Option Set :=
  match stackOf c h with
  | some s => enableStackField c a s o
  | none => enableField c a h o

/-- `P4Objects::enable_arith` of one field.  `/repo/src/bm_sim/P4Objects.cpp:2539-2561`. -/
def enableArithField (c : Cfg) (a : Set) (h o : Nat) : Option Set :=
  match unionStackPos c h with
  | some (s, off) => enableUnionStackField c a s off o
  | none => enableArithField' c a h o

/-- The second half of `enable_arith`.  `/repo/src/bm_sim/P4Objects.cpp:2577-2584`. -/
def enableArith' (c : Cfg) (a : Set) (h : Nat) : Option Set :=
  match stackOf c h with
  | some s => enableStackAll c a s
  | none => enableAll c a h

/-- `P4Objects::enable_arith` of a header.  `/repo/src/bm_sim/P4Objects.cpp:2563-2585`. -/
def enableArith (c : Cfg) (a : Set) (h : Nat) : Option Set :=
  match unionStackPos c h with
  | some (s, off) => enableUnionStackAllAt c a s off
  | none => enableArith' c a h

/-- A parameter of a primitive, or an operand of an expression. -/
inductive Param
  | header (h : Nat)
  | field (h o : Nat)
  | headerStack (s : Nat)
  | union (u : Nat)
  | unionStack (s : Nat)
deriving Repr

/-- What is enabled for it; nothing for a union.
`/repo/src/bm_sim/P4Objects.cpp:212-225,252-278,359-373,390-395,442-451`. -/
def enableParam (c : Cfg) (a : Set) : Param → Option Set
  | .header h => enableArith c a h
  | .field h o => enableArithField c a h o
  | .headerStack s => enableStackAll c a s
  | .union _ => some a
  | .unionStack s => enableUnionStackAll c a s

/-- Loading a configuration.  `/repo/src/bm_sim/P4Objects.cpp:698`. -/
def load (c : Cfg) (ps : List Param) : Option Set := ps.foldlM (enableParam c) []

/-- The headers a parameter names. -/
def Param.headers (c : Cfg) : Param → List Nat
  | .header h => [h]
  | .field h _ => [h]
  | .headerStack s => (c.hstacks[s]?).getD []
  | .union u => (c.unions[u]?).getD []
  | .unionStack s => ((c.unionStacks[s]?).getD []).flatMap fun u => (c.unions[u]?).getD []

/-- The headers of the vector: fields of the given widths, unsigned, and `$valid$`.
`/repo/src/bm_sim/headers.cpp:127-160`, `/repo/src/bm_sim/phv.cpp:322-335`. -/
def makeHeaders (a : Set) (types : List (Nat × List Nat)) : Option (List Header) :=
  types.zipIdx.mapM fun ((t, ws), h) =>
    Header.mk' t none ((ws.zipIdx.map fun (w, o) => ⟨w, false, false, false, false, a.contains (h, o)⟩)
      ++ [Header.validInfo (a.contains (h, ws.length))]) false

end Bm.ArithCfg
