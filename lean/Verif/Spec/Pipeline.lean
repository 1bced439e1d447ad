import Verif.Spec.MatchTable

/-!
# Specification of the control flow of a program (C66)

A program declares pipelines; a pipeline declares nodes (tables, conditionals, calls of actions), each naming the nodes
to go to, and a first node.  A packet walks from node to node: a conditional decides on the state of the packet, a call
runs an action, a table runs the action of the best matching entry or the default (`AStep`).  The walk ends where no node
is named, or when the packet is marked for exit.  `σ` is the packet together with everything actions can change but
the tables.
-/

namespace Bm.Pipe
open Spec

/-- Actions and the exit flag; `mark` is what the application of a table leaves in the packet before the action is
run (index of the entry, colour of its meter). -/
structure Sem (σ : Type) where
  exit : σ → Bool
  act : ActFn → List Int → σ → Option σ
  mark : Option Nat → Nat → σ → σ

/-- Running the chosen action, if there is one. -/
def Sem.run {σ : Type} (sem : Sem σ) : Option (ActFn × List Int) → σ → Option σ
  | none, s => some s
  | some (f, d), s => sem.act f d s

/-- A table: its declaration, and how lookup key, length and arrival time are found in the packet. -/
structure TableNode (K σ : Type) where
  decl : TableDecl K
  size : Nat
  sizeKey : Nat
  key : σ → List UInt8
  nbytes : σ → Nat
  ts : σ → Nat

/-- Declarations of nodes.  For conditionals the two keys may be missing. -/
inductive NodeDecl (K σ : Type)
  | table (t : TableNode K σ)
  | cond (ev : σ → Option Bool) (t f : Option (Option Nat))
  | call (fn : ActFn) (next : Option Nat)

/-- A pipeline: tables, conditionals, calls of actions (in this order). -/
structure PipeDecl (K : Nat → Type) (σ : Type) where
  nodes : List ((n : Nat) × NodeDecl (K n) σ)
  first : Option Nat

variable {K : Nat → Type} {σ : Type}

/-- A program. -/
abbrev Prog (K : Nat → Type) (σ : Type) := List (PipeDecl K σ)

/-- The program declares the node `n` to be `d`. -/
def Prog.Has (P : Prog K σ) (n : Nat) (d : NodeDecl (K n) σ) : Prop := ∃ p ∈ P, ⟨n, d⟩ ∈ p.nodes

/-- The nodes named by a table. -/
def TableDecl.Names {K : Type} (P : TableDecl K) (m : Nat) : Prop :=
  (∃ x ∈ P.actions, x.2 = some m) ∨ (∃ x, P.hitMiss = some x ∧ (x.1 = some m ∨ x.2 = some m)) ∨ P.base = some (some m)

/-- The nodes named by a node. -/
def NodeDecl.Names {K : Type} (m : Nat) : NodeDecl K σ → Prop
  | .table t => TableDecl.Names t.decl m
  | .cond _ t f => t = some (some m) ∨ f = some (some m)
  | .call _ next => next = some m

/-- There is no cycle. -/
def Prog.Acyclic (P : Prog K σ) : Prop :=
  ∃ rank : Nat → Nat, ∀ n (d : NodeDecl (K n) σ) m, P.Has n d → d.Names m → rank m < rank n

/-- How a walk goes on: it has ended, it is at a node, or something undefined happened (in an action or condition). -/
inductive Stop (σ : Type)
  | ended (s : σ)
  | atNode (n : Nat) (s : σ)
  | undefined

/-- Walks from a node, with the nodes visited. -/
inductive Walk (sem : Sem σ) (sp : (n : Nat) → MatchSpec (K n)) (P : Prog K σ) (T : (n : Nat) → AState (K n)) :
    Option Nat → σ → List Nat → Stop σ → Prop
  | stop (s) : Walk sem sp P T none s [] (.ended s)
  | exit (n s) : sem.exit s = true → Walk sem sp P T (some n) s [] (.ended s)
  | pause (n s) : sem.exit s = false → Walk sem sp P T (some n) s [] (.atNode n s)
  | cond {n s ev t f b l r} : sem.exit s = false → P.Has n (.cond ev t f) → ev s = some b →
      Walk sem sp P T ((if b then t else f).getD none) s l r → Walk sem sp P T (some n) s (n :: l) r
  | condU {n s ev t f} : sem.exit s = false → P.Has n (.cond ev t f) → ev s = none →
      Walk sem sp P T (some n) s [n] .undefined
  | call {n s fn next s' l r} : sem.exit s = false → P.Has n (.call fn next) → sem.act fn [] s = some s' →
      Walk sem sp P T next s' l r → Walk sem sp P T (some n) s (n :: l) r
  | callU {n s fn next} : sem.exit s = false → P.Has n (.call fn next) → sem.act fn [] s = none →
      Walk sem sp P T (some n) s [n] .undefined
  | table {n s t a hit index next s' l r} : sem.exit s = false → P.Has n (.table t) →
      AStep t.decl (sp n) t.size (decide (t.sizeKey = 0)) (T n) (.apply (t.key s) (t.nbytes s) (t.ts s)) (T n)
        (.ran a hit index next) → sem.run a (sem.mark hit index s) = some s' →
      Walk sem sp P T next s' l r → Walk sem sp P T (some n) s (n :: l) r
  | tableU {n s t a hit index next} : sem.exit s = false → P.Has n (.table t) →
      AStep t.decl (sp n) t.size (decide (t.sizeKey = 0)) (T n) (.apply (t.key s) (t.nbytes s) (t.ts s)) (T n)
        (.ran a hit index next) → sem.run a (sem.mark hit index s) = none →
      Walk sem sp P T (some n) s [n] .undefined

/-- What happens: a call on a table, or a packet that enters a pipeline (and makes at most `fuel` steps). -/
inductive Op (K : Nat → Type) (σ : Type)
  | table (n : Nat) (op : AOp (K n))
  | packet (pipe fuel : Nat) (s : σ)

/-- What is seen of it. -/
inductive Out (K : Nat → Type) (σ : Type)
  | table (n : Nat) (out : AOut (K n))
  | packet (visited : List Nat) (stop : Stop σ)
  | undefined

/-- Allowed results of a history; nothing is said after something undefined. -/
inductive Trace (sem : Sem σ) (sp : (n : Nat) → MatchSpec (K n)) (P : Prog K σ) :
    ((n : Nat) → AState (K n)) → List (Op K σ) → List (Out K σ) → Prop
  | nil (T) : Trace sem sp P T [] []
  | table {T n t op s' out ops outs} : P.Has n (.table t) →
      AStep t.decl (sp n) t.size (decide (t.sizeKey = 0)) (T n) op s' out →
      Trace sem sp P (fun m => if h : m = n then h ▸ s' else T m) ops outs →
      Trace sem sp P T (.table n op :: ops) (.table n out :: outs)
  | packet {T pipe fuel s p l r ops outs} : P[pipe]? = some p → Walk sem sp P T p.first s l r →
      (∀ n s', r = .atNode n s' → l.length = fuel) → r ≠ .undefined → Trace sem sp P T ops outs →
      Trace sem sp P T (.packet pipe fuel s :: ops) (.packet l r :: outs)
  | dead {T pipe fuel s p l ops} : P[pipe]? = some p → Walk sem sp P T p.first s l .undefined →
      Trace sem sp P T (.packet pipe fuel s :: ops) [.undefined]

/-- Calls are made on tables that exist and are valid; packets go to pipelines that exist. -/
def Op.Valid (sp : (n : Nat) → MatchSpec (K n)) (P : Prog K σ) : Op K σ → Prop
  | .table n op => ∃ t, P.Has n (.table t) ∧ op.Valid t.decl (sp n)
  | .packet pipe _ _ => pipe < P.length

/-- All tables are as they are after loading. -/
def Prog.Start (P : Prog K σ) (T : (n : Nat) → AState (K n)) : Prop := ∀ n t, P.Has n (.table t) → t.decl.Start (T n)

/-- Programs considered: the tables are well formed, with keys of the right form. -/
def Prog.WF (sp : (n : Nat) → MatchSpec (K n)) (P : Prog K σ) : Prop :=
  ∀ n t, P.Has n (.table t) → t.decl.WF (sp n) ∧ t.size ≤ 2 ^ 24 ∧ ∀ s, (sp n).okQ (t.key s)

/-- Declarations that can be accepted. -/
def NodeDecl.Sound {K : Type} (sp : MatchSpec K) : NodeDecl K σ → Prop
  | .table t => t.decl.Sound sp t.size (decide (t.sizeKey = 0)) ∧ t.size ≤ 2 ^ 24
  | .cond _ t f => t ≠ none ∨ f ≠ none
  | .call fn _ => fn.nparams = 0

/-- The nodes a program declares. -/
def Prog.names (P : Prog K σ) : List Nat := P.flatMap fun p => p.nodes.map Sigma.fst

/-- Programs that have to be accepted: nodes have different names, every node is acceptable, and names only nodes of
its own or of an earlier pipeline. -/
structure Prog.Sound (sp : (n : Nat) → MatchSpec (K n)) (P : Prog K σ) : Prop where
  nodup : P.names.Nodup
  nodes : ∀ n d, P.Has n d → d.Sound (sp n)
  closed : ∀ i p, P[i]? = some p → (∀ x ∈ p.nodes, ∀ m, x.2.Names m → m ∈ Prog.names (P.take (i + 1))) ∧
    ∀ m, p.first = some m → m ∈ Prog.names (P.take (i + 1))

end Bm.Pipe
