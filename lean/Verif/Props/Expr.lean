import Verif.Lemmas.ExprMain

/-!
# Expressions

C34.  `Spec.value` says what an expression means, by recursion over it.  `compile` builds the list of
operations and assigns the temporaries, the `eval...` functions run it, on whatever temporaries the
thread has left from earlier evaluations.  The two agree for all well-typed expressions without
`access_union_header`; for that operator the code pushes the wrong operation
(`/repo/src/bm_sim/P4Objects.cpp:194-198`), `C34_access_union_header_refuted`.

`and` and `or` are strict in the code and in `Spec.value`: `C34_and_strict`.
-/

namespace Bm.Ex

open Bm.Ex.Spec (Val)

/-- Running the operations gives the value, through the function for its type.  For a number that was
not computed the function for assignments gives the place it is stored. -/
def Gives (env : Env) (old : List Int) (b : Built) : Val → Prop
  | .data v loc => evalArith env old b = some v ∧
      (loc = none → ∃ k, evalLvalue env old b = some (.temp k)) ∧
      (loc = some .const → ∃ k, evalLvalue env old b = some (.const k)) ∧
      (∀ k, loc = some (.local k) → evalLvalue env old b = some (.local k)) ∧
      (∀ h off, loc = some (.field h off) → evalLvalue env old b = some (.field h off)) ∧
      (∀ a i, loc = some (.reg a i) → evalLvalue env old b = some (.reg a i))
  | .bool v => evalBool env old b = some v
  | .header h => evalHeader env old b = some h
  | .union u => evalUnion env old b = some u
  | .headerStack s => evalStack env old b = some (false, s)
  | .unionStack s => evalStack env old b = some (true, s)

theorem shift_zero (op : Op) : Code.shift 0 op = op := by cases op <;> rfl

theorem code_ne (e : Expr) : (code e).ops ≠ [] := by
  cases e <;> simp [code, Code.append, Code.ternaryTail]

/-- **C34** (partial: expressions with `access_union_header` are excluded, for which it is false).
A well-typed expression is compiled, and then running the operations, with any temporaries left over
from other evaluations, in any state in which the expression has a value, gives that value. -/
theorem C34_eval_partial (e : Expr) (t : Ty) (hn : NoUnionAccess e) (ht : Spec.ty e = some t) :
    ∃ b, compile e = some (b, t) ∧
      ∀ env old v, Spec.value env e = some v → Gives env old b v := by
  have hb := build_eq e t {} ht
  rw [Code.nil_append] at hb
  have hm : (code e).ops.map (Code.shift 0) = (code e).ops := by
    rw [List.map_congr_left (fun op _ => shift_zero op), List.map_id']
  have G := fun env => good_expr env e t hn ht (code e).consts 0 []
    (fun i v h => by simpa using h)
  simp only [hm, List.sum_nil] at G
  obtain ⟨os, S', cnt, ha, -, -⟩ := G ⟨⟨[], [], [], [], []⟩, false, [], []⟩
  have hne : os ≠ [] := by
    have := assign_length _ _ _ _ _ ha
    have h2 := code_ne e
    intro h
    rw [h] at this
    exact h2 (List.length_eq_zero_iff.mp this.symm)
  refine ⟨⟨os, (code e).consts, cnt⟩, ?_, ?_⟩
  · simp only [compile, hb, Option.bind_eq_bind, Option.bind_some]
    rw [show (({} : Regs)) = ⟨0, []⟩ from rfl, ha]
    rfl
  · intro env old v hv
    obtain ⟨os', S'', cnt', ha', -, G'⟩ := G env
    rw [ha] at ha'
    simp only [Option.some.injEq, Prod.mk.injEq] at ha'
    obtain ⟨rfl, -, rfl⟩ := ha'
    obtain ⟨-, G'⟩ := G' v hv
    obtain ⟨T', i, hr, -, hi, -⟩ := G' (prepare old cnt) [] (by simp [prepare]; omega)
    rw [List.append_nil] at hr
    have hE : eval env old ⟨os, (code e).consts, cnt⟩ = some (((prepare old cnt).withT T').push i) := by
      rw [eval, hr]
      rfl
    cases v <;> cases i <;> first | exact hi.elim | skip
    · rename_i v loc r
      obtain ⟨h1, h2⟩ := hi
      have hl : evalLvalue env old ⟨os, (code e).consts, cnt⟩ = some r := by
        simp [evalLvalue, hne, hE, St.push, St.popData]
      refine ⟨?_, ?_, ?_, ?_, ?_, ?_⟩
      · simp [evalArith, hne, hE, St.push, St.popData]
        exact h1
      · rintro rfl
        obtain ⟨k, rfl⟩ := h2
        exact ⟨k, hl⟩
      · rintro rfl
        obtain ⟨k, rfl⟩ := h2
        exact ⟨k, hl⟩
      · rintro k rfl
        cases h2
        exact hl
      · rintro h off rfl
        cases h2
        exact hl
      · rintro a i rfl
        cases h2
        exact hl
    all_goals
      cases hi
      simp [Gives, evalBool, evalHeader, evalUnion, evalStack, hne, hE, St.push, St.popBool,
        St.popHeader, St.popUnion, St.popStack]

/-! ## Examples -/

/-- A state with a valid header of two fields (5 and 7), an invalid one, a union of them, a header
stack with one element in use, an array of two registers and one action parameter. -/
def exEnv : Env :=
  let f (v : Int) : Field := ⟨8, 1, [v.toNat.toUInt8], v, true, false, false, false, false, 255, 255, 0⟩
  let a : Header := ⟨0, none, [f 5, f 7], true, false, 2⟩
  let b : Header := ⟨0, none, [f 9, f 9], false, false, 2⟩
  { phv := ⟨[a, b], [none, none], [⟨[0, 1], true, 0⟩], [⟨[0, 1], 1⟩], []⟩
    rz := true
    locals := [2]
    regs := [[10, 20]] }

/-- `(f0 < f1 ? (valid(h1) ? 1 : f1 - f0 * p0) : 1000) + reg[f1 - 6]`. -/
def exExpr : Expr :=
  .arith .add
    (.cond (.ord .lt (.field 0 0) (.field 0 1))
      (.cond (.valid (.header 1)) (.const 1)
        (.arith .sub (.field 0 1) (.arith .mul (.field 0 0) (.local 0))))
      (.const 1000))
    (.regGen 0 (.arith .sub (.field 0 1) (.const 6)))

/-- The hypotheses of `C34_eval_partial` hold for it, and its value is -3 + 20. -/
example : NoUnionAccess exExpr ∧ Spec.ty exExpr = some .data ∧
    Spec.value exEnv exExpr = some (.data 17 none) := by
  refine ⟨?_, ?_, ?_⟩
  · simp [exExpr, NoUnionAccess]
  · decide
  · decide +kernel

/-- What the model computes for it, with leftover temporaries. -/
example : (compile exExpr).map (fun b => (evalArith exEnv [77, 88, 99] b.1, b.1.cnt)) =
    some (some 17, 2) := by decide +kernel

/-- A place: the field of the first element of the stack, chosen by a conditional. -/
example : NoUnionAccess (.accessField (.cond (.d2b (.local 0)) (.derefHeader (.headerStack 0) (.const 0))
      (.header 1)) 1) ∧
    Spec.value exEnv (.accessField (.cond (.d2b (.local 0)) (.derefHeader (.headerStack 0) (.const 0))
      (.header 1)) 1) = some (.data 7 (some (.field 0 1))) := by
  refine ⟨by simp [NoUnionAccess], ?_⟩
  decide +kernel

/-! ## Where the code departs from the meaning of expressions -/

/-- The full C34 is false: `valid(u.h0)` is well-typed and has the value `true`, but the compiled form
pops a header that is not there. -/
theorem C34_access_union_header_refuted :
    ¬ ∀ (e : Expr) (t : Ty), Spec.ty e = some t → ∃ b, compile e = some (b, t) ∧
      ∀ env old v, Spec.value env e = some v → Gives env old b v := by
  intro h
  obtain ⟨b, h1, h2⟩ := h (.valid (.accessUnionHeader (.union 0) 0)) .bool (by decide)
  have h3 := h2 exEnv [] (.bool true) (by decide +kernel)
  have h4 : compile (.valid (.accessUnionHeader (.union 0) 0)) =
      some (⟨[.loadUnion 0, .accessField 0, .validHeader], [], 0⟩, .bool) := by decide
  rw [h4] at h1
  simp only [Option.some.injEq, Prod.mk.injEq, and_true] at h1
  subst h1
  have h5 : evalBool exEnv [] ⟨[.loadUnion 0, .accessField 0, .validHeader], [], 0⟩ = none := by
    decide +kernel
  simp only [Gives, h5, reduceCtorEq] at h3

/-- `and` does not protect its right operand: guarding a stack access by the size of the stack does not
help, the access is made nevertheless (here outside the vector). -/
theorem C34_and_strict :
    (compile (.and (.ord .lt (.const 5) (.size (.headerStack 0)))
      (.valid (.derefHeader (.headerStack 0) (.const 5))))).map
        (fun b => evalBool exEnv [] b.1) = some none ∧
    (compile (.ord .lt (.const 5) (.size (.headerStack 0)))).map
      (fun b => evalBool exEnv [] b.1) = some (some false) := by
  refine ⟨?_, ?_⟩ <;> decide +kernel

/-- The last index of an empty stack is `2^64 - 1`, not an error. -/
theorem C34_last_index_empty (env : Env) (old : List Int) (s : Nat) (els : List Nat)
    (h : env.phv.hstacks[s]? = some ⟨els, 0⟩) :
    (compile (.lastIndex (.headerStack s))).bind (fun b => evalArith env old b.1) =
      some (2 ^ 64 - 1) := by
  have hc : compile (.lastIndex (.headerStack s)) =
      some (⟨[.loadHeaderStack s, .lastStackIndex 0], [], 1⟩, .data) := rfl
  rw [hc]
  have hl : 0 < (old ++ List.replicate (1 - old.length) (0 : Int)).length := by
    rw [List.length_append, List.length_replicate]
    omega
  simp only [Option.bind_some, evalArith, eval, run, step, prepare, h, St.popStack, stackCount, St.store,
    St.popData, hl, get, isArith, load, Option.bind_eq_bind, Option.pure_def, if_true, List.cons_ne_nil,
    if_false, reduceCtorEq]
  rw [List.getElem?_set_self hl]

end Bm.Ex
