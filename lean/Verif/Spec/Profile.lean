import Verif.Spec.Table
import Mathlib.Data.Finset.Card
import Mathlib.Data.Finset.Filter

/-!
# Specification of an action profile and the indirect tables that use it (C15–C17)

The state is what an API client sees: the members with their actions, the groups as finite sets
of members, the tables (as in `Verif.Spec.Table`, with references to members or groups as values)
and the default entries.  There are no reference counts: whether a member or group is in use is
read off the state.
-/

namespace Bm.Spec

/-- What a table entry points to. -/
inductive Ref
  | mbr (m : Nat)
  | grp (g : Nat)
deriving DecidableEq, Repr

/-- State; `ι` names the tables sharing the profile, `A` is the type of actions (with data). -/
structure PState (ι : Type) (K : ι → Type) (A : Type) where
  mem : Nat → Option A
  grp : Nat → Option (Finset Nat)
  tab : ∀ i, Nat → Option (K i × Ref)
  dflt : ι → Option Ref

/-- Static data of the tables. -/
structure PCfg (ι : Type) (K : ι → Type) where
  sp : ∀ i, MatchSpec (K i)
  size : ι → Nat
  keyless : ι → Bool
  constDflt : ι → Bool

variable {ι : Type} {K : ι → Type} {A : Type}

/-- Nothing there. -/
def PState.empty : PState ι K A := ⟨fun _ => none, fun _ => none, fun _ _ => none, fun _ => none⟩

/-- The member or group exists. -/
def PState.Has (s : PState ι K A) : Ref → Prop
  | .mbr m => (s.mem m).isSome = true
  | .grp g => (s.grp g).isSome = true

/-- Something refers to the member or group: a table entry, a default entry, or (for members)
a group containing it. -/
def PState.Used (s : PState ι K A) (r : Ref) : Prop :=
  (∃ i h k, s.tab i h = some (k, r)) ∨ (∃ i, s.dflt i = some r) ∨
  (∃ m g G, r = .mbr m ∧ s.grp g = some G ∧ m ∈ G)

/-- Calls. -/
inductive POp (ι : Type) (K : ι → Type) (A : Type)
  | addMember (a : Option A)
  | delMember (m : Nat)
  | modMember (m : Nat) (a : Option A)
  | newGroup
  | delGroup (g : Nat)
  | join (m g : Nat)
  | leave (m g : Nat)
  | getMember (m : Nat)
  | getMembers
  | getGroup (g : Nat)
  | getGroups
  | counts
  | tAdd (i : ι) (key : Option (K i)) (r : Ref) (now : Nat)
  | tDel (i : ι) (h : Nat)
  | tMod (i : ι) (h : Nat) (r : Ref)
  | tGet (i : ι) (h : Nat)
  | tLookup (i : ι) (q : List UInt8) (nbytes ts hash : Nat)
  | setDflt (i : ι) (r : Ref)
  | unsetDflt (i : ι)
  | clear (i : ι) (dflt : Bool)
  | resetAll

/-- Reasons for refusing a call. -/
inductive PErr
  | badData | noMember | noGroup | inUse | already | notIn | emptyGroup | constDefault
deriving DecidableEq, Repr

/-- Action selected by a lookup: a member's action, the action for an empty group, or the
table's built-in default. -/
inductive Look (A : Type)
  | builtin
  | empty
  | act (a : A)
deriving DecidableEq, Repr

/-- Results. -/
inductive POut (ι : Type) (K : ι → Type) (A : Type)
  | err (e : PErr)
  | done
  | id (n : Nat)
  | member (a : A)
  | members (l : List (Nat × A))
  | group (l : List Nat)
  | groups (l : List (Nat × List Nat))
  | num (members groups : Nat)
  | tab (i : ι) (o : TOut (K i) Ref)
  | look (hit : Option Nat) (r : Look A)

/-- `l` lists the elements of `G` in increasing order. -/
def Lists (l : List Nat) (G : Finset Nat) : Prop := l.Pairwise (· < ·) ∧ ∀ x, x ∈ l ↔ x ∈ G

/-- Action chosen for a reference when the packet hashes to `hash`: for a non-empty group, the
member with exactly `hash mod n` members below it. -/
def PState.Chosen (s : PState ι K A) (hash : Nat) : Ref → Look A → Prop
  | .mbr m, res => ∃ a, s.mem m = some a ∧ res = .act a
  | .grp g, res => ∃ G, s.grp g = some G ∧
      ((G = ∅ ∧ res = .empty) ∨
       ∃ m ∈ G, (G.filter (· < m)).card = hash % G.card ∧ ∃ a, s.mem m = some a ∧ res = .act a)

/-- The error for a reference that cannot be used in a table entry. -/
def PState.RefErr (s : PState ι K A) (r : Ref) (e : PErr) : Prop :=
  match r with
  | .mbr m => s.mem m = none ∧ e = .noMember
  | .grp g => (s.grp g = none ∧ e = .noGroup) ∨ (s.grp g = some ∅ ∧ e = .emptyGroup)

/-- Function update (dependent). -/
def upd [DecidableEq ι] {P : ι → Type} (f : ∀ i, P i) (i : ι) (x : P i) : ∀ j, P j :=
  fun j => if h : j = i then h ▸ x else f j

/-- Allowed transitions. -/
def PStep [DecidableEq ι] (c : PCfg ι K) (s : PState ι K A) :
    POp ι K A → PState ι K A → POut ι K A → Prop
  | .addMember none, s', out => out = .err .badData ∧ s' = s
  | .addMember (some a), s', out => ∃ m, s.mem m = none ∧ out = .id m ∧
      s' = { s with mem := fun x => if x = m then some a else s.mem x }
  | .delMember m, s', out =>
    (¬ s.Has (.mbr m) ∧ out = .err .noMember ∧ s' = s) ∨
    (s.Has (.mbr m) ∧ s.Used (.mbr m) ∧ out = .err .inUse ∧ s' = s) ∨
    (s.Has (.mbr m) ∧ ¬ s.Used (.mbr m) ∧ out = .done ∧
      s' = { s with mem := fun x => if x = m then none else s.mem x })
  | .modMember _ none, s', out => out = .err .badData ∧ s' = s
  | .modMember m (some a), s', out =>
    (¬ s.Has (.mbr m) ∧ out = .err .noMember ∧ s' = s) ∨
    (s.Has (.mbr m) ∧ out = .done ∧
      s' = { s with mem := fun x => if x = m then some a else s.mem x })
  | .newGroup, s', out => ∃ g, s.grp g = none ∧ out = .id g ∧
      s' = { s with grp := fun x => if x = g then some ∅ else s.grp x }
  | .delGroup g, s', out =>
    (¬ s.Has (.grp g) ∧ out = .err .noGroup ∧ s' = s) ∨
    (s.Has (.grp g) ∧ s.Used (.grp g) ∧ out = .err .inUse ∧ s' = s) ∨
    (s.Has (.grp g) ∧ ¬ s.Used (.grp g) ∧ out = .done ∧
      s' = { s with grp := fun x => if x = g then none else s.grp x })
  | .join m g, s', out =>
    (¬ s.Has (.mbr m) ∧ out = .err .noMember ∧ s' = s) ∨
    (s.Has (.mbr m) ∧ s.grp g = none ∧ out = .err .noGroup ∧ s' = s) ∨
    ∃ G, s.Has (.mbr m) ∧ s.grp g = some G ∧
      ((m ∈ G ∧ out = .err .already ∧ s' = s) ∨
       (m ∉ G ∧ out = .done ∧
        s' = { s with grp := fun x => if x = g then some (insert m G) else s.grp x }))
  | .leave m g, s', out =>
    (¬ s.Has (.mbr m) ∧ out = .err .noMember ∧ s' = s) ∨
    (s.Has (.mbr m) ∧ s.grp g = none ∧ out = .err .noGroup ∧ s' = s) ∨
    ∃ G, s.Has (.mbr m) ∧ s.grp g = some G ∧
      ((m ∉ G ∧ out = .err .notIn ∧ s' = s) ∨
       (m ∈ G ∧ out = .done ∧
        s' = { s with grp := fun x => if x = g then some (G.erase m) else s.grp x }))
  | .getMember m, s', out => s' = s ∧
    ((s.mem m = none ∧ out = .err .noMember) ∨ ∃ a, s.mem m = some a ∧ out = .member a)
  | .getMembers, s', out => s' = s ∧ ∃ l : List (Nat × A), out = .members l ∧
      (l.map Prod.fst).Pairwise (· < ·) ∧ ∀ m a, (m, a) ∈ l ↔ s.mem m = some a
  | .getGroup g, s', out => s' = s ∧
    ((s.grp g = none ∧ out = .err .noGroup) ∨
     ∃ G l, s.grp g = some G ∧ out = .group l ∧ Lists l G)
  | .getGroups, s', out => s' = s ∧ ∃ l : List (Nat × List Nat), out = .groups l ∧
      (l.map Prod.fst).Pairwise (· < ·) ∧
      (∀ g x, (g, x) ∈ l → ∃ G, s.grp g = some G ∧ Lists x G) ∧
      (∀ g G, s.grp g = some G → g ∈ l.map Prod.fst)
  | .counts, s', out => s' = s ∧ ∃ M G : Finset Nat, (∀ m, m ∈ M ↔ s.Has (.mbr m)) ∧
      (∀ g, g ∈ G ↔ s.Has (.grp g)) ∧ out = .num M.card G.card
  | .tAdd i key r now, s', out =>
    (∃ e, s.RefErr r e ∧ out = .err e ∧ s' = s) ∨
    ((∀ e, ¬ s.RefErr r e) ∧ ∃ T' o,
      TStep (c.sp i) (c.size i) (c.keyless i) (s.tab i) (.add key r now) T' o ∧
      out = .tab i o ∧ s' = { s with tab := upd s.tab i T' })
  | .tDel i h, s', out => ∃ T' o,
      TStep (c.sp i) (c.size i) (c.keyless i) (s.tab i) (.delete h) T' o ∧
      out = .tab i o ∧ s' = { s with tab := upd s.tab i T' }
  | .tMod i h r, s', out =>
    (∃ e, (s.tab i h).isSome = true ∧ s.RefErr r e ∧ out = .err e ∧ s' = s) ∨
    (((s.tab i h).isSome = true → ∀ e, ¬ s.RefErr r e) ∧ ∃ T' o,
      TStep (c.sp i) (c.size i) (c.keyless i) (s.tab i) (.modify h r) T' o ∧
      out = .tab i o ∧ s' = { s with tab := upd s.tab i T' })
  | .tGet i h, s', out => ∃ o,
      TStep (c.sp i) (c.size i) (c.keyless i) (s.tab i) (.get h) (s.tab i) o ∧
      out = .tab i o ∧ s' = s
  | .tLookup i q nb ts hash, s', out => s' = s ∧ ∃ o,
      TStep (c.sp i) (c.size i) (c.keyless i) (s.tab i) (.lookup q nb ts) (s.tab i) o ∧
      ((o = .miss ∧ s.dflt i = none ∧ out = .look none .builtin) ∨
       (∃ r res, o = .miss ∧ s.dflt i = some r ∧ s.Chosen hash r res ∧ out = .look none res) ∨
       (∃ h r res, o = .hit h r ∧ s.Chosen hash r res ∧ out = .look (some h) res))
  | .setDflt i r, s', out =>
    (c.constDflt i = true ∧ out = .err .constDefault ∧ s' = s) ∨
    (c.constDflt i = false ∧ ¬ s.Has r ∧
      out = .err (match r with | .mbr _ => .noMember | .grp _ => .noGroup) ∧ s' = s) ∨
    (c.constDflt i = false ∧ s.Has r ∧ out = .done ∧ s' = { s with dflt := upd s.dflt i (some r) })
  | .unsetDflt i, s', out => out = .done ∧ s' = { s with dflt := upd s.dflt i none }
  | .clear i d, s', out => out = .done ∧
      s' = { s with
        tab := upd s.tab i (fun _ => none)
        dflt := if d then upd s.dflt i none else s.dflt }
  | .resetAll, s', out => out = .done ∧ s' = PState.empty

/-- Obligations of the caller: keys are well formed for the table. -/
def POp.Valid (c : PCfg ι K) : POp ι K A → Prop
  | .tAdd i (some k) _ _ => (c.sp i).okK k
  | .tLookup i q _ _ _ => (c.sp i).okQ q
  | _ => True

/-- Allowed results of a history. -/
inductive PTrace [DecidableEq ι] (c : PCfg ι K) :
    PState ι K A → List (POp ι K A) → List (POut ι K A) → PState ι K A → Prop
  | nil (s) : PTrace c s [] [] s
  | cons {s s' s'' op out ops outs} : PStep c s op s' out → PTrace c s' ops outs s'' →
      PTrace c s (op :: ops) (out :: outs) s''

end Bm.Spec

namespace Bm.Spec
variable {ι : Type} {K : ι → Type} {A : Type}

/-- Groups that were created and not deleted, after one more call with its result. -/
def groupsAfter (S : Finset Nat) : POp ι K A → POut ι K A → Finset Nat
  | .newGroup, .id g => insert g S
  | .delGroup g, .done => S.erase g
  | _, _ => S

/-- Members added to each group and not removed, after one more call with its result. -/
def membersAfter (M : Nat → Finset Nat) : POp ι K A → POut ι K A → Nat → Finset Nat
  | .newGroup, .id g => fun x => if x = g then ∅ else M x
  | .join m g, .done => fun x => if x = g then insert m (M x) else M x
  | .leave m g, .done => fun x => if x = g then (M x).erase m else M x
  | _, _ => M

/-- The same for a history. -/
def liveGroups (S : Finset Nat) : List (POp ι K A) → List (POut ι K A) → Finset Nat
  | op :: ops, out :: outs => liveGroups (groupsAfter S op out) ops outs
  | _, _ => S

/-- The same for a history. -/
def addedMembers (M : Nat → Finset Nat) : List (POp ι K A) → List (POut ι K A) → Nat → Finset Nat
  | op :: ops, out :: outs => addedMembers (membersAfter M op out) ops outs
  | _, _ => M

end Bm.Spec

namespace Bm.Spec
variable {ι : Type} {K : ι → Type} {A : Type}

/-! ## With references that are never given back

The property (C15) is about `PStep`.  What follows is weaker: a member or group to which something referred, or was
meant to refer, may stay undeletable.  `L r` tells how often that happened to `r`. -/

/-- `n` is the number of entries of a table that point to `r`. -/
def NumEntries {K : Type} (T : Nat → Option (K × Ref)) (r : Ref) (n : Nat) : Prop :=
  ∃ l : Finset Nat, (∀ h, h ∈ l ↔ ∃ k, T h = some (k, r)) ∧ l.card = n

/-- Allowed transitions.  A refused addition and the clearing of a table leave references behind; only a reset of
everything removes them. -/
def PStepL [DecidableEq ι] (c : PCfg ι K) (s : PState ι K A) (L : Ref → Nat) (op : POp ι K A)
    (s' : PState ι K A) (L' : Ref → Nat) (out : POut ι K A) : Prop :=
  match op with
  | .delMember m => L' = L ∧
    ((0 < L (.mbr m) ∧ s.Has (.mbr m) ∧ out = .err .inUse ∧ s' = s) ∨
     (L (.mbr m) = 0 ∧ PStep c s (.delMember m) s' out))
  | .delGroup g => L' = L ∧
    ((0 < L (.grp g) ∧ s.Has (.grp g) ∧ out = .err .inUse ∧ s' = s) ∨
     (L (.grp g) = 0 ∧ PStep c s (.delGroup g) s' out))
  | .tAdd i key r now => PStep c s (.tAdd i key r now) s' out ∧
    (((∃ e, out = .tab i (.err e)) ∧ L' = fun x => if x = r then L x + 1 else L x) ∨
     ((∀ e, out ≠ .tab i (.err e)) ∧ L' = L))
  | .clear i d => PStep c s (.clear i d) s' out ∧
    ∀ r, ∃ n, NumEntries (s.tab i) r n ∧
      ((d = true ∧ s.dflt i = some r ∧ L' r = L r + n + 1) ∨ (¬ (d = true ∧ s.dflt i = some r) ∧ L' r = L r + n))
  | .resetAll => PStep c s .resetAll s' out ∧ L' = fun _ => 0
  | op => PStep c s op s' out ∧ L' = L

/-- Allowed results of a history. -/
inductive PTraceL [DecidableEq ι] (c : PCfg ι K) :
    PState ι K A → (Ref → Nat) → List (POp ι K A) → List (POut ι K A) → PState ι K A → (Ref → Nat) → Prop
  | nil (s L) : PTraceL c s L [] [] s L
  | cons {s L s' L' s'' L'' op out ops outs} : PStepL c s L op s' L' out → PTraceL c s' L' ops outs s'' L'' →
      PTraceL c s L (op :: ops) (out :: outs) s'' L''

/-- How many references a history can leave behind. -/
def leftBehind (size : ι → Nat) : List (POp ι K A) → Nat
  | [] => 0
  | .tAdd _ _ _ _ :: ops => 1 + leftBehind size ops
  | .clear i _ :: ops => size i + 1 + leftBehind size ops
  | _ :: ops => leftBehind size ops

end Bm.Spec
