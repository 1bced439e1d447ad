import Verif.Model.Expr
import Verif.Spec.Expr
import Verif.Props.Data

/-!
# Compiled expressions: the operation list of each sub-expression does its part
-/

namespace Bm.Ex

open Bm.Ex.Spec (Val)

/-! ## The operation list in closed form -/

namespace Code

/-- Operations without a constant. -/
def Plain (op : Op) : Prop := ∀ k, shift k op = op

theorem shift_shift (a b : Nat) (op : Op) : shift a (shift b op) = shift (b + a) op := by
  cases op <;> simp [shift, Nat.add_assoc]

theorem shift_zero (op : Op) : shift 0 op = op := by cases op <;> rfl

theorem append_assoc (x y z : Code) : (x.append y).append z = x.append (y.append z) := by
  unfold append
  simp only [List.map_append, List.map_map, List.append_assoc, List.length_append, Code.mk.injEq,
    List.append_cancel_left_eq, and_true]
  apply List.map_congr_left
  intro op _
  simp [shift_shift, Nat.add_comm]

theorem nil_append (x : Code) : append {} x = x := by
  cases x
  simp only [append, List.length_nil, List.nil_append, Code.mk.injEq, and_true]
  exact (List.map_congr_left fun op _ => shift_zero op).trans (List.map_id _)

theorem push_eq (x : Code) {op : Op} (h : Plain op) : x.push op = x.append ⟨[op], []⟩ := by
  simp [push, append, h x.consts.length]

theorem pushConst_eq (x : Code) (v : Int) : x.pushConst v = x.append ⟨[.loadConst 0], [v]⟩ := by
  simp [pushConst, append, shift]

/-- The operations of a conditional after those of the condition. -/
def ternaryTail (e1 e2 : Code) : Code :=
  append ⟨[.ternary, .skip (e1.ops.length + 1)], []⟩ (e1.append (append ⟨[.skip e2.ops.length], []⟩ e2))

theorem plain_skip (n : Nat) : Plain (.skip n) := fun _ => rfl
theorem plain_ternary : Plain .ternary := fun _ => rfl

theorem pushTernary_eq (x e1 e2 : Code) : x.pushTernary e1 e2 = x.append (ternaryTail e1 e2) := by
  unfold pushTernary ternaryTail
  rw [push_eq _ plain_ternary, push_eq _ (plain_skip _), push_eq _ (plain_skip _)]
  simp only [append_assoc]
  have h : (append ⟨[.ternary], []⟩ (append ⟨[.skip (e1.ops.length + 1)], []⟩ (e1.append
      (append ⟨[.skip e2.ops.length], []⟩ e2)))) =
      append ⟨[.ternary, .skip (e1.ops.length + 1)], []⟩ (e1.append
        (append ⟨[.skip e2.ops.length], []⟩ e2)) := by
    rw [← append_assoc]
    rfl
  rw [h]

end Code

open Code

/-- The operation list of an expression, without an accumulator. -/
def code : Expr → Code
  | .header h => ⟨[.loadHeader h], []⟩
  | .field h off => ⟨[.loadField h off], []⟩
  | .bool b => ⟨[.loadBool b], []⟩
  | .const v => ⟨[.loadConst 0], [v]⟩
  | .local k => ⟨[.loadLocal k], []⟩
  | .regRef a i => ⟨[.loadRegRef a i], []⟩
  | .regGen a i => (code i).append ⟨[.loadRegGen a], []⟩
  | .headerStack s => ⟨[.loadHeaderStack s], []⟩
  | .stackField s off => ⟨[.loadLastField s off], []⟩
  | .union u => ⟨[.loadUnion u], []⟩
  | .unionStack s => ⟨[.loadUnionStack s], []⟩
  | .cond c l r => (code c).append (ternaryTail (code l) (code r))
  | .eq negated l r =>
    ((code l).append (code r)).append ⟨[((Spec.ty l).bind (eqOp negated)).getD .and], []⟩
  | .accessField e off => (code e).append ⟨[.accessField off], []⟩
  | .accessUnionHeader e off => (code e).append ⟨[.accessField off], []⟩
  | .arith o l r => ((code l).append (code r)).append ⟨[.bin o 0], []⟩
  | .unary minus e =>
    (Code.append ⟨[.loadConst 0], [0]⟩ (code e)).append ⟨[.bin (if minus then .sub else .add) 0], []⟩
  | .ord o l r => ((code l).append (code r)).append ⟨[.cmp (.ord o)], []⟩
  | .and l r => ((code l).append (code r)).append ⟨[.and], []⟩
  | .or l r => ((code l).append (code r)).append ⟨[.or], []⟩
  | .not e => (code e).append ⟨[.not], []⟩
  | .bitNeg e => (code e).append ⟨[.bitNeg 0], []⟩
  | .valid e => (code e).append ⟨[.validHeader], []⟩
  | .validUnion e => (code e).append ⟨[.validUnion], []⟩
  | .d2b e => (code e).append ⟨[.d2b], []⟩
  | .b2d e => (code e).append ⟨[.b2d 0], []⟩
  | .derefHeader s i => ((code s).append (code i)).append ⟨[.derefHeaderStack], []⟩
  | .derefUnion s i => ((code s).append (code i)).append ⟨[.derefUnionStack], []⟩
  | .lastIndex s => (code s).append ⟨[.lastStackIndex 0], []⟩
  | .size s => (code s).append ⟨[.sizeStack 0], []⟩

theorem plain_eqOp {negated : Bool} {t : Ty} {op : Op} (h : eqOp negated t = some op) : Plain op := by
  cases t <;> simp [eqOp] at h <;> subst h <;> exact fun _ => rfl

theorem build_eq (e : Expr) : ∀ (t : Ty) (x : Code), Spec.ty e = some t →
    build e x = some (x.append (code e), t) := by
  have P : ∀ (x : Code) (op : Op), Plain op → x.push op = x.append ⟨[op], []⟩ := fun x op h => push_eq x h
  induction e with
  | header h | field h off | bool b | «local» k | regRef a i | headerStack s | stackField s off
  | union u | unionStack s =>
    intro t x ht
    simp only [Spec.ty, Option.some.injEq] at ht
    subst ht
    rw [build, code, P _ _ (fun _ => rfl)]
  | const v =>
    intro t x ht
    simp only [Spec.ty, Option.some.injEq] at ht
    subst ht
    rw [build, code, pushConst_eq]
  | regGen a i ih | not e ih | bitNeg e ih | valid e ih | validUnion e ih | d2b e ih | b2d e ih =>
    intro t x ht
    simp only [Spec.ty] at ht
    split at ht <;> simp only [Option.some.injEq, reduceCtorEq] at ht
    subst ht
    rename_i h
    simp only [build, code, ih _ x h, Option.bind_eq_bind, Option.bind_some, Option.pure_def,
      Option.some.injEq, Prod.mk.injEq, and_true]
    rw [P _ _ (fun _ => rfl), append_assoc]
  | lastIndex s ih | size s ih =>
    intro t x ht
    simp only [Spec.ty] at ht
    split at ht <;> simp only [Option.some.injEq, reduceCtorEq] at ht
    subst ht
    rename_i h
    rcases h with h | h <;>
    · simp only [build, code, ih _ x h, Option.bind_eq_bind, Option.bind_some, Option.pure_def,
        Option.some.injEq, Prod.mk.injEq, and_true]
      rw [P _ _ (fun _ => rfl), append_assoc]
  | accessField e off ih | accessUnionHeader e off ih =>
    intro t x ht
    simp only [Spec.ty] at ht
    split at ht <;> simp only [Option.some.injEq, reduceCtorEq] at ht
    subst ht
    rename_i h
    simp only [build, code, ih _ x h, Option.bind_eq_bind, Option.bind_some, Option.pure_def,
      Option.some.injEq, Prod.mk.injEq, and_true, if_true]
    rw [P _ _ (fun _ => rfl), append_assoc]
  | arith o l r ihl ihr | ord o l r ihl ihr | and l r ihl ihr | or l r ihl ihr
  | derefHeader l r ihl ihr | derefUnion l r ihl ihr =>
    intro t x ht
    simp only [Spec.ty] at ht
    split at ht <;> simp only [Option.some.injEq, reduceCtorEq] at ht
    subst ht
    rename_i h
    simp only [build, code, ihl _ x h.1, ihr _ _ h.2, Option.bind_eq_bind, Option.bind_some,
      Option.pure_def, Option.some.injEq, Prod.mk.injEq, and_true]
    rw [P _ _ (fun _ => rfl), append_assoc, append_assoc, append_assoc]
  | unary minus e ih =>
    intro t x ht
    simp only [Spec.ty] at ht
    split at ht <;> simp only [Option.some.injEq, reduceCtorEq] at ht
    subst ht
    rename_i h
    simp only [build, code, ih _ _ h, Option.bind_eq_bind, Option.bind_some, Option.pure_def,
      Option.some.injEq, Prod.mk.injEq, and_true]
    rw [P _ _ (fun _ => rfl), pushConst_eq, append_assoc, append_assoc, append_assoc]
  | cond c l r ihc ihl ihr =>
    intro t x ht
    simp only [Spec.ty] at ht
    split at ht
    case isFalse => exact absurd ht (by simp)
    rename_i h
    simp only [build, code, ihc _ x h.1, ihl _ _ ht, ihr _ _ (h.2 ▸ ht), Option.bind_eq_bind,
      Option.bind_some, Option.pure_def, if_true, nil_append, pushTernary_eq, append_assoc]
  | eq negated l r ihl ihr =>
    intro t x ht
    simp only [Spec.ty] at ht
    split at ht <;> simp only [Option.some.injEq, reduceCtorEq] at ht
    subst ht
    rename_i h
    obtain ⟨h1, h2⟩ := h
    have key : ∀ t', Spec.ty l = some t' → ∀ op, eqOp negated t' = some op →
        build (.eq negated l r) x = some (x.append (code (.eq negated l r)), .bool) := by
      intro t' ht' op hop
      simp only [build, code, ihl _ x ht', ihr _ _ (h1 ▸ ht'), ht', hop, Option.bind_eq_bind,
        Option.bind_some, Option.pure_def, if_true, Option.some.injEq, Prod.mk.injEq, and_true,
        Option.getD_some]
      rw [P _ _ (plain_eqOp hop), append_assoc, append_assoc, append_assoc]
    rcases h2 with h2 | h2 | h2 | h2 <;> exact key _ h2 _ rfl

/-! ## Running a list of operations -/

theorem assign_append (xs ys : List Op) : ∀ (r : Regs), assign (xs ++ ys) r =
    (assign xs r).bind fun (a, r1, c1) => (assign ys r1).bind fun (b, r2, c2) =>
      some (a ++ b, r2, max c1 c2) := by
  induction xs with
  | nil =>
    intro r
    simp only [List.nil_append, assign, Option.bind_some, Nat.zero_max]
    rcases assign ys r with _ | ⟨a, b, c⟩ <;> rfl
  | cons op xs ih =>
    intro r
    simp only [List.cons_append, assign, Option.bind_eq_bind, ih]
    rcases assignOp op r with _ | ⟨op', r'⟩
    · rfl
    · simp only [Option.bind_some]
      rcases assign xs r' with _ | ⟨a, r1, c1⟩
      · rfl
      · simp only [Option.bind_some, Option.pure_def]
        rcases assign ys r1 with _ | ⟨b, r2, c2⟩
        · rfl
        · simp [Nat.max_assoc]

theorem assign_length : ∀ (xs : List Op) (r : Regs) (a : List Op) (r' : Regs) (c : Nat),
    assign xs r = some (a, r', c) → a.length = xs.length
  | [], r, a, r', c, h => by
    simp only [assign, Option.some.injEq, Prod.mk.injEq] at h
    simp [← h.1]
  | op :: xs, r, a, r', c, h => by
    simp only [assign, Option.bind_eq_bind] at h
    rcases hop : assignOp op r with _ | ⟨op', r1⟩ <;> simp only [hop, Option.bind_none, Option.bind_some, reduceCtorEq] at h
    rcases hxs : assign xs r1 with _ | ⟨b, r2, c2⟩ <;> simp only [hxs, Option.bind_none, Option.bind_some, reduceCtorEq, Option.pure_def, Option.some.injEq, Prod.mk.injEq] at h
    rw [← h.1, List.length_cons, List.length_cons, assign_length xs r1 b r2 c2 hxs]

theorem run_skip (env : Env) (C : List Int) (os tail : List Op) (st : St) :
    run env C (os ++ tail) os.length st = run env C tail 0 st := by
  induction os with
  | nil => rfl
  | cons op os ih => exact ih

/-- What an evaluation leaves on one of the stacks. -/
inductive Item where
  | data (r : Ref) | bool (b : Bool) | header (h : Nat) | stk (s : Bool × Nat) | union (u : Nat)

/-- Pushing it. -/
def St.push (st : St) : Item → St
  | .data r => { st with data := r :: st.data }
  | .bool b => { st with bools := b :: st.bools }
  | .header h => { st with headers := h :: st.headers }
  | .stk s => { st with stks := s :: st.stks }
  | .union u => { st with unions := u :: st.unions }

/-- Other temporaries. -/
def St.withT (st : St) (T : List Int) : St := { st with temps := T }

/-- The pointer leads to this place. -/
def AtLoc : Option Loc → Ref → Prop
  | some (.field h off), r => r = .field h off
  | some .const, r => ∃ k, r = .const k
  | some (.local k), r => r = .local k
  | some (.reg a i), r => r = .reg a i
  | none, r => ∃ k, r = .temp k

/-- The item stands for the value. -/
def Rel (env : Env) (C T : List Int) : Val → Item → Prop
  | .data v loc, .data r => get env C T r = some v ∧ AtLoc loc r
  | .bool b, .bool b' => b = b'
  | .header h, .header h' => h = h'
  | .headerStack s, .stk s' => s' = (false, s)
  | .unionStack s, .stk s' => s' = (true, s)
  | .union u, .union u' => u = u'
  | _, _ => False

/-- The type of a value. -/
def vty : Val → Ty
  | .data _ _ => .data
  | .bool _ => .bool
  | .header _ => .header
  | .headerStack _ => .headerStack
  | .unionStack _ => .unionStack
  | .union _ => .union

/-- Temporaries used by an item are below a bound. -/
def Bound (n : Nat) : Item → Prop
  | .data (.temp k) => k < n
  | _ => True

/-- The first `n` temporaries are the same. -/
def Agree (n : Nat) (T T' : List Int) : Prop :=
  T'.length = T.length ∧ ∀ k, k < n → T'[k]? = T[k]?

theorem Agree.refl (n : Nat) (T : List Int) : Agree n T T := ⟨rfl, fun _ _ => rfl⟩

theorem Agree.trans {n m : Nat} {T T' T'' : List Int} (h : n ≤ m) (h1 : Agree n T T')
    (h2 : Agree m T' T'') : Agree n T T'' :=
  ⟨h2.1.trans h1.1, fun k hk => (h2.2 k (by omega)).trans (h1.2 k hk)⟩

theorem Agree.mono {n m : Nat} {T T' : List Int} (h : n ≤ m) (h2 : Agree m T T') : Agree n T T' :=
  ⟨h2.1, fun k hk => h2.2 k (by omega)⟩

theorem Agree.set {n d : Nat} (T : List Int) (v : Int) (h : n ≤ d) : Agree n T (T.set d v) :=
  ⟨by simp, fun k hk => List.getElem?_set_ne (by omega)⟩

theorem Rel.agree {env : Env} {C T T' : List Int} {n : Nat} {v : Val} {i : Item}
    (h : Rel env C T v i) (hb : Bound n i) (ha : Agree n T T') : Rel env C T' v i := by
  cases v <;> cases i <;> try exact h
  rename_i v loc r
  refine ⟨?_, h.2⟩
  rw [← h.1]
  cases r <;> try rfl
  rename_i k
  simp only [get, isArith, if_true, load]
  exact ha.2 k hb

theorem Bound.mono {n m : Nat} {i : Item} (h : n ≤ m) (hb : Bound n i) : Bound m i := by
  cases i <;> try trivial
  rename_i r
  cases r <;> try trivial
  exact Nat.lt_of_lt_of_le hb h

/-- Number of data operands of a type. -/
def nd : Ty → Nat
  | .data => 1
  | _ => 0

/-- The operations `z` compute a value of type `t`, namely `d`, wherever they are placed (constants
from offset `K` of `C` on, `S` the entries of `new_registers`), without touching temporaries below
`S.sum`, and leave at least one entry for a number. -/
def Good (env : Env) (z : Code) (t : Ty) (d : Option Val) : Prop :=
  ∀ (C : List Int) (K : Nat) (S : List Nat),
    (∀ (i : Nat) (v : Int), z.consts[i]? = some v → C[K + i]? = some v) →
    ∃ os S' cnt, assign (z.ops.map (shift K)) ⟨S.sum, S⟩ = some (os, ⟨S'.sum, S'⟩, cnt) ∧
      (∃ pre, S' = pre ++ S ∧ nd t ≤ pre.length) ∧
      ∀ v, d = some v → vty v = t ∧ ∀ st tail, cnt ≤ st.temps.length →
        ∃ T' i, run env C (os ++ tail) 0 st = run env C tail 0 ((st.withT T').push i) ∧
          Agree S.sum st.temps T' ∧ Rel env C T' v i ∧ Bound S'.sum i

theorem placed_left {x y : Code} {C : List Int} {K : Nat}
    (h : ∀ (i : Nat) (v : Int), (x.append y).consts[i]? = some v → C[K + i]? = some v) :
    ∀ (i : Nat) (v : Int), x.consts[i]? = some v → C[K + i]? = some v := by
  intro i v hi
  apply h
  simp only [append]
  rw [List.getElem?_append_left (List.getElem?_eq_some_iff.mp hi).1]
  exact hi

theorem placed_right {x y : Code} {C : List Int} {K : Nat}
    (h : ∀ (i : Nat) (v : Int), (x.append y).consts[i]? = some v → C[K + i]? = some v) :
    ∀ (i : Nat) (v : Int), y.consts[i]? = some v → C[x.consts.length + K + i]? = some v := by
  intro i v hi
  have := h (x.consts.length + i) v (by
    simp only [append]
    rw [List.getElem?_append_right (by omega)]
    simpa using hi)
  rw [← this]
  congr 1
  omega

theorem map_shift_append (x y : Code) (K : Nat) : (x.append y).ops.map (shift K) =
    x.ops.map (shift K) ++ y.ops.map (shift (x.consts.length + K)) := by
  simp only [append, List.map_append, List.map_map, List.append_cancel_left_eq]
  apply List.map_congr_left
  intro op _
  simp [shift_shift]

/-- A single operation without operands. -/
theorem good_leaf {env : Env} {op : Op} {t : Ty} {d : Option Val} (hp : Plain op)
    (ha : ∀ r : Regs, assignOp op r = some (op, if t = .data then r.push0 else r))
    (hs : ∀ v, d = some v → vty v = t ∧ ∀ (C : List Int) (st : St),
      ∃ i, step env C op st = some (0, st.push i) ∧ Rel env C st.temps v i ∧ Bound 0 i) :
    Good env ⟨[op], []⟩ t d := by
  intro C K S _
  simp only [List.map_cons, List.map_nil, hp K, assign, ha, Option.bind_eq_bind, Option.bind_some,
    Option.pure_def]
  have key : ∀ S' : List Nat, ∀ cnt, ∀ v, d = some v → vty v = t ∧ ∀ st tail, cnt ≤ st.temps.length →
        ∃ T' i, run env C ([op] ++ tail) 0 st = run env C tail 0 ((st.withT T').push i) ∧
          Agree S.sum st.temps T' ∧ Rel env C T' v i ∧ Bound S'.sum i := by
    intro S' cnt v hv
    refine ⟨(hs v hv).1, fun st tail _ => ?_⟩
    obtain ⟨i, h1, h2, h3⟩ := (hs v hv).2 C st
    refine ⟨st.temps, i, ?_, Agree.refl _ _, h2, h3.mono (Nat.zero_le _)⟩
    simp only [List.singleton_append, run, h1, Option.bind_eq_bind, Option.bind_some]
    rfl
  by_cases ht : t = .data
  · subst ht
    refine ⟨[op], 0 :: S, S.sum, ?_, ⟨[0], rfl, by simp [nd]⟩, key _ _⟩
    simp [Regs.push0]
  · refine ⟨[op], S, S.sum, ?_, ⟨[], rfl, by cases t <;> simp_all [nd]⟩, key _ _⟩
    simp [ht]

/-- A constant. -/
theorem good_const (env : Env) (v : Int) :
    Good env ⟨[.loadConst 0], [v]⟩ .data (some (.data v (some .const))) := by
  intro C K S hC
  have hK : C[K]? = some v := hC 0 v rfl
  refine ⟨[.loadConst (0 + K)], 0 :: S, S.sum, ?_, ⟨[0], rfl, by simp [nd]⟩, ?_⟩
  · simp [assign, assignOp, shift, Regs.push0]
  · intro w hw
    simp only [Option.some.injEq] at hw
    subst hw
    refine ⟨rfl, fun st tail _ => ⟨st.temps, .data (.const K), ?_, Agree.refl _ _, ?_, trivial⟩⟩
    · simp [run, step, hK, St.withT, St.push]
    · exact ⟨by simp [get, isArith, load, hK], K, rfl⟩

/-- What an operation with one operand must do. -/
def OpUn (env : Env) (op : Op) (t t' : Ty) (f : Val → Option Val) : Prop :=
  ∀ A S : List Nat, A.length = nd t → ∃ op' B,
    assignOp op ⟨(A ++ S).sum, A ++ S⟩ = some (op', ⟨(B ++ S).sum, B ++ S⟩) ∧ nd t' ≤ B.length ∧
    ∀ C v v', vty v = t → f v = some v' → vty v' = t' ∧ ∀ (T : List Int) (st : St) (i : Item), Rel env C T v i →
      (B ++ S).sum ≤ T.length → ∃ T' i',
        step env C op' ((st.withT T).push i) = some (0, (st.withT T').push i') ∧
        Agree S.sum T T' ∧ Rel env C T' v' i' ∧ Bound (B ++ S).sum i'

theorem good_un {env : Env} {z : Code} {t t' : Ty} {d : Option Val} {op : Op} {f : Val → Option Val}
    (hz : Good env z t d) (hp : Plain op) (hop : OpUn env op t t' f) :
    Good env (z.append ⟨[op], []⟩) t' (d.bind f) := by
  intro C K S hC
  obtain ⟨os, S1, cnt, h1, ⟨pre, rfl, hpre⟩, hdyn⟩ := hz C K S (placed_left hC)
  obtain ⟨A, pre', rfl, hA⟩ : ∃ A pre', pre = A ++ pre' ∧ A.length = nd t :=
    ⟨pre.take (nd t), pre.drop (nd t), (List.take_append_drop _ _).symm, by simp [hpre]⟩
  obtain ⟨op', B, h2, hB, hstep⟩ := hop A (pre' ++ S) hA
  rw [List.append_assoc] at h1 hdyn
  refine ⟨os ++ [op'], B ++ (pre' ++ S), max cnt (B ++ (pre' ++ S)).sum, ?_,
    ⟨B ++ pre', by simp, by simp; omega⟩, ?_⟩
  · rw [map_shift_append, assign_append, h1]
    simp only [Option.bind_some, List.map_cons, List.map_nil, hp _, assign, h2, Option.bind_eq_bind,
      Option.pure_def, Nat.max_zero]
  · intro v' hv'
    obtain ⟨v, hv, hf⟩ := Option.bind_eq_some_iff.mp hv'
    obtain ⟨hvt, hrun⟩ := hdyn v hv
    obtain ⟨hvt', hst⟩ := hstep C v v' hvt hf
    refine ⟨hvt', fun st tail hcnt => ?_⟩
    obtain ⟨T1, i, hr1, ha1, hrel1, hb1⟩ := hrun st ([op'] ++ tail) (by omega)
    obtain ⟨T2, i', hs2, ha2, hrel2, hb2⟩ := hst T1 st i hrel1 (by rw [ha1.1]; omega)
    refine ⟨T2, i', ?_, ha1.trans (by simp) ha2, hrel2, hb2⟩
    rw [List.append_assoc, hr1]
    simp only [List.singleton_append, run, hs2, Option.bind_eq_bind, Option.bind_some]

/-- What an operation with two operands must do. -/
def OpBin (env : Env) (op : Op) (t1 t2 t' : Ty) (f : Val → Val → Option Val) : Prop :=
  ∀ A S : List Nat, A.length = nd t1 + nd t2 → ∃ op' B,
    assignOp op ⟨(A ++ S).sum, A ++ S⟩ = some (op', ⟨(B ++ S).sum, B ++ S⟩) ∧ nd t' ≤ B.length ∧
    ∀ C v1 v2 v', vty v1 = t1 → vty v2 = t2 → f v1 v2 = some v' → vty v' = t' ∧
      ∀ (T : List Int) (st : St) (i1 i2 : Item), Rel env C T v1 i1 → Rel env C T v2 i2 → (B ++ S).sum ≤ T.length → ∃ T' i',
        step env C op' (((st.withT T).push i1).push i2) = some (0, (st.withT T').push i') ∧
        Agree S.sum T T' ∧ Rel env C T' v' i' ∧ Bound (B ++ S).sum i'

theorem push_withT (st : St) (T : List Int) (i : Item) :
    (st.push i).withT T = (st.withT T).push i := by
  cases i <;> rfl

theorem withT_withT (st : St) (T T' : List Int) : (st.withT T).withT T' = st.withT T' := rfl

theorem withT_temps (st : St) (T : List Int) (i : Item) : ((st.withT T).push i).temps = T := by
  cases i <;> rfl

theorem good_bin {env : Env} {x y : Code} {t1 t2 t' : Ty} {d1 d2 : Option Val} {op : Op}
    {f : Val → Val → Option Val} (hx : Good env x t1 d1) (hy : Good env y t2 d2) (hp : Plain op)
    (hop : OpBin env op t1 t2 t' f) :
    Good env ((x.append y).append ⟨[op], []⟩) t' (d1.bind fun v1 => d2.bind fun v2 => f v1 v2) := by
  intro C K S hC
  obtain ⟨os1, S1, cnt1, h1, ⟨pre1, rfl, hpre1⟩, hdyn1⟩ := hx C K S (placed_left (placed_left hC))
  obtain ⟨os2, S2, cnt2, h2, ⟨pre2, rfl, hpre2⟩, hdyn2⟩ :=
    hy C (x.consts.length + K) (pre1 ++ S) (placed_right (placed_left hC))
  obtain ⟨A, pre', he, hA⟩ : ∃ A pre', pre2 ++ pre1 = A ++ pre' ∧ A.length = nd t1 + nd t2 :=
    ⟨(pre2 ++ pre1).take (nd t1 + nd t2), (pre2 ++ pre1).drop (nd t1 + nd t2),
      (List.take_append_drop _ _).symm, by simp; omega⟩
  have he' : pre2 ++ (pre1 ++ S) = A ++ (pre' ++ S) := by
    rw [← List.append_assoc, he, List.append_assoc]
  obtain ⟨op', B, h3, hB, hstep⟩ := hop A (pre' ++ S) hA
  refine ⟨os1 ++ os2 ++ [op'], B ++ (pre' ++ S), max (max cnt1 cnt2) (B ++ (pre' ++ S)).sum, ?_,
    ⟨B ++ pre', by simp, by simp; omega⟩, ?_⟩
  · rw [map_shift_append, map_shift_append, assign_append, assign_append, h1]
    simp only [Option.bind_some]
    rw [h2, he']
    simp only [Option.bind_some, List.map_cons, List.map_nil, hp _, assign, h3, Option.bind_eq_bind,
      Option.pure_def, Nat.max_zero]
  · intro v' hv'
    obtain ⟨v1, hv1, hv'⟩ := Option.bind_eq_some_iff.mp hv'
    obtain ⟨v2, hv2, hf⟩ := Option.bind_eq_some_iff.mp hv'
    obtain ⟨ht1, hrun1⟩ := hdyn1 v1 hv1
    obtain ⟨ht2, hrun2⟩ := hdyn2 v2 hv2
    obtain ⟨hvt', hst⟩ := hstep C v1 v2 v' ht1 ht2 hf
    refine ⟨hvt', fun st tail hcnt => ?_⟩
    obtain ⟨T1, i1, hr1, ha1, hrel1, hb1⟩ := hrun1 st (os2 ++ ([op'] ++ tail)) (by omega)
    obtain ⟨T2, i2, hr2, ha2, hrel2, hb2⟩ := hrun2 ((st.withT T1).push i1) ([op'] ++ tail)
      (by rw [withT_temps, ha1.1]; omega)
    rw [withT_temps] at ha2
    obtain ⟨T3, i', hs3, ha3, hrel3, hb3⟩ := hst T2 st i1 i2 (hrel1.agree hb1 ha2) hrel2
      (by rw [ha2.1, ha1.1]; omega)
    refine ⟨T3, i', ?_, (ha1.trans (by simp) ha2).trans (by simp) ha3, hrel3, hb3⟩
    rw [List.append_assoc, List.append_assoc, hr1, hr2, push_withT, withT_withT]
    simp only [List.singleton_append, run, hs3, Option.bind_eq_bind, Option.bind_some]

theorem good_cond {env : Env} {c x y : Code} {t : Ty} {d d1 d2 : Option Val}
    (hc : Good env c .bool d) (hx : Good env x t d1) (hy : Good env y t d2) :
    Good env (c.append (ternaryTail x y)) t (d.bind fun v => match v with
      | .bool true => d1
      | .bool false => d2
      | _ => none) := by
  intro C K S hC
  have hC' := placed_right hC
  unfold ternaryTail at hC'
  have hCx := placed_left (placed_right hC')
  have hCy := placed_right (placed_right (placed_right hC'))
  obtain ⟨os0, S0, cnt0, h0, ⟨pre0, rfl, hpre0⟩, hdyn0⟩ := hc C K S (placed_left hC)
  obtain ⟨os1, S1, cnt1, h1, ⟨pre1, rfl, hpre1⟩, hdyn1⟩ := hx C _ (pre0 ++ S) hCx
  obtain ⟨os2, S2, cnt2, h2, ⟨pre2, rfl, hpre2⟩, hdyn2⟩ := hy C _ (pre1 ++ (pre0 ++ S)) hCy
  have hl1 := assign_length _ _ _ _ _ h1
  have hl2 := assign_length _ _ _ _ _ h2
  rw [List.length_map] at hl1 hl2
  refine ⟨os0 ++ ([.ternary, .skip (x.ops.length + 1)] ++ (os1 ++ ([.skip y.ops.length] ++ os2))),
    pre2 ++ (pre1 ++ (pre0 ++ S)), max cnt0 (max (pre0 ++ S).sum (max cnt1
      (max (pre1 ++ (pre0 ++ S)).sum cnt2))), ?_, ⟨pre2 ++ pre1 ++ pre0, by simp, by simp; omega⟩, ?_⟩
  · unfold ternaryTail
    rw [map_shift_append, map_shift_append, map_shift_append, map_shift_append, assign_append, h0]
    simp only [Option.bind_some]
    rw [assign_append]
    simp only [List.map_cons, List.map_nil, plain_ternary _, plain_skip _ _, assign, assignOp,
      Option.bind_eq_bind, Option.bind_some, Option.pure_def]
    rw [assign_append, h1]
    simp only [Option.bind_some]
    rw [assign_append]
    simp only [List.map_cons, List.map_nil, plain_ternary _, plain_skip _ _, assign, assignOp,
      Option.bind_eq_bind, Option.bind_some, Option.pure_def]
    rw [h2]
    simp
  · intro v hv
    obtain ⟨vc, hvc, hv⟩ := Option.bind_eq_some_iff.mp hv
    obtain ⟨htc, hrun0⟩ := hdyn0 vc hvc
    have hpop : ∀ (st : St) (b : Bool), (st.push (.bool b)).popBool = some (b, st) := fun _ _ => rfl
    cases vc with
    | bool b =>
      cases b with
      | true =>
        obtain ⟨ht1, hrun1⟩ := hdyn1 v hv
        refine ⟨ht1, fun st tail hcnt => ?_⟩
        obtain ⟨T0, i0, hr0, ha0, hrel0, hb0⟩ := hrun0 st ([.ternary, .skip (x.ops.length + 1)] ++
          (os1 ++ ([.skip y.ops.length] ++ os2)) ++ tail) (by omega)
        cases i0 <;> try exact hrel0.elim
        rename_i b
        obtain rfl : true = b := hrel0
        obtain ⟨T1, i1, hr1, ha1, hrel1, hb1⟩ := hrun1 (st.withT T0)
          ([.skip y.ops.length] ++ os2 ++ tail) (by show _ ≤ T0.length; rw [ha0.1]; omega)
        refine ⟨T1, i1, ?_, ha0.trans (by simp) ha1, hrel1, hb1.mono (by simp)⟩
        rw [List.append_assoc, hr0]
        simp only [List.cons_append, List.nil_append, run, step, hpop, Option.bind_eq_bind,
          Option.bind_some, Option.pure_def, if_true, List.append_assoc]
        rw [show os1 ++ Op.skip y.ops.length :: (os2 ++ tail) = os1 ++ ([.skip y.ops.length] ++ os2 ++ tail)
          by simp, hr1]
        simp only [List.cons_append, List.nil_append, run, step, Option.bind_eq_bind, Option.bind_some]
        rw [← hl2, run_skip, withT_withT]
      | false =>
        obtain ⟨ht2, hrun2⟩ := hdyn2 v hv
        refine ⟨ht2, fun st tail hcnt => ?_⟩
        obtain ⟨T0, i0, hr0, ha0, hrel0, hb0⟩ := hrun0 st ([.ternary, .skip (x.ops.length + 1)] ++
          (os1 ++ ([.skip y.ops.length] ++ os2)) ++ tail) (by omega)
        cases i0 <;> try exact hrel0.elim
        rename_i b
        obtain rfl : false = b := hrel0
        obtain ⟨T1, i1, hr1, ha1, hrel1, hb1⟩ := hrun2 (st.withT T0) tail
          (by show _ ≤ T0.length; rw [ha0.1]; omega)
        refine ⟨T1, i1, ?_, ha0.trans (m := (pre1 ++ (pre0 ++ S)).sum) (by simp; omega) ha1,
          hrel1, hb1⟩
        rw [List.append_assoc, hr0]
        simp only [List.cons_append, List.nil_append, run, step, hpop, Option.bind_eq_bind,
          Option.bind_some, Option.pure_def, List.append_assoc, Bool.false_eq_true, if_false]
        rw [show os1 ++ Op.skip y.ops.length :: (os2 ++ tail) =
            (os1 ++ [.skip y.ops.length]) ++ (os2 ++ tail) by simp,
          show x.ops.length + 1 = (os1 ++ [Op.skip y.ops.length]).length by simp [hl1], run_skip, hr1,
          withT_withT]
    | _ => exact absurd hv (by simp)

end Bm.Ex
