import Verif.Lemmas.ExprOps

/-!
# Compiled expressions: induction over the expression
-/

namespace Bm.Ex

open Bm.Ex.Spec (Val)
open Code

/-- `access_union_header` does not occur. -/
def NoUnionAccess : Expr → Prop
  | .accessUnionHeader _ _ => False
  | .regGen _ e | .accessField e _ | .unary _ e | .not e | .bitNeg e | .valid e | .validUnion e
  | .d2b e | .b2d e | .lastIndex e | .size e => NoUnionAccess e
  | .cond c l r => NoUnionAccess c ∧ NoUnionAccess l ∧ NoUnionAccess r
  | .eq _ l r | .arith _ l r | .ord _ l r | .and l r | .or l r | .derefHeader l r | .derefUnion l r =>
    NoUnionAccess l ∧ NoUnionAccess r
  | _ => True

theorem OpBin.congr {env : Env} {op : Op} {t1 t2 t' : Ty} {f g : Val → Val → Option Val}
    (h : OpBin env op t1 t2 t' f)
    (hfg : ∀ v1 v2 v, vty v1 = t1 → vty v2 = t2 → g v1 v2 = some v → f v1 v2 = some v) :
    OpBin env op t1 t2 t' g := by
  intro A S hA
  obtain ⟨op', B, h1, h2, h3⟩ := h A S hA
  exact ⟨op', B, h1, h2, fun C v1 v2 v' e1 e2 e3 => h3 C v1 v2 v' e1 e2 (hfg _ _ _ e1 e2 e3)⟩

/-- A weaker claim about the value. -/
theorem Good.weaken {env : Env} {z : Code} {t : Ty} {d d' : Option Val} (h : Good env z t d)
    (hd : ∀ v, d' = some v → d = some v) : Good env z t d' := by
  intro C K S hC
  obtain ⟨os, S', cnt, h1, h2, h3⟩ := h C K S hC
  exact ⟨os, S', cnt, h1, h2, fun v hv => h3 v (hd v hv)⟩

theorem good_expr (env : Env) (e : Expr) : ∀ t, NoUnionAccess e → Spec.ty e = some t →
    Good env (code e) t (Spec.value env e) := by
  have if_ty : ∀ {p : Prop} [Decidable p] {a t : Ty}, (if p then some a else none) = some t →
      p ∧ a = t := by
    intro p _ a t h
    split at h
    · exact ⟨‹p›, by simpa using h⟩
    · cases h
  induction e with
  | header h =>
    rintro t - ht
    cases ht
    refine good_leaf (fun _ => rfl) (fun _ => rfl) ?_
    intro v hv
    simp only [Spec.value, Option.bind_eq_bind, Option.bind_eq_some_iff, Option.pure_def,
      Option.some.injEq] at hv
    obtain ⟨x, e, rfl⟩ := hv
    exact ⟨rfl, fun C st => ⟨.header h, by simp [step, e, St.push], rfl, trivial⟩⟩
  | field h off =>
    rintro t - ht
    cases ht
    refine good_leaf (fun _ => rfl) (fun _ => rfl) ?_
    intro v hv
    obtain ⟨x, rfl, e1, e2⟩ := fieldVal_eq hv
    exact ⟨rfl, fun C st => ⟨.data (.field h off), by simp [step, e1, St.push], ⟨e2 _ _, rfl⟩, trivial⟩⟩
  | bool b =>
    rintro t - ht
    cases ht
    refine good_leaf (fun _ => rfl) (fun _ => rfl) ?_
    intro v hv
    cases hv
    exact ⟨rfl, fun C st => ⟨.bool b, rfl, rfl, trivial⟩⟩
  | const v =>
    rintro t - ht
    cases ht
    exact good_const env v
  | «local» k =>
    rintro t - ht
    cases ht
    refine good_leaf (fun _ => rfl) (fun _ => rfl) ?_
    intro v hv
    simp only [Spec.value, Option.bind_eq_bind, Option.bind_eq_some_iff, Option.pure_def,
      Option.some.injEq] at hv
    obtain ⟨x, e, rfl⟩ := hv
    exact ⟨rfl, fun C st => ⟨.data (.local k), by simp [step, e, St.push],
      ⟨by simp [get, isArith, load, e], rfl⟩, trivial⟩⟩
  | regRef a i =>
    rintro t - ht
    cases ht
    refine good_leaf (fun _ => rfl) (fun _ => rfl) ?_
    intro v hv
    obtain ⟨arr, x, rfl, e1, e2, e3⟩ := regVal_eq hv
    exact ⟨rfl, fun C st => ⟨.data (.reg a i), by simp [step, e1, e2, St.push], ⟨e3 _ _, rfl⟩, trivial⟩⟩
  | headerStack s =>
    rintro t - ht
    cases ht
    refine good_leaf (fun _ => rfl) (fun _ => rfl) ?_
    intro v hv
    simp only [Spec.value, Option.bind_eq_bind, Option.bind_eq_some_iff, Option.pure_def,
      Option.some.injEq] at hv
    obtain ⟨x, e, rfl⟩ := hv
    exact ⟨rfl, fun C st => ⟨.stk (false, s), by simp [step, e, St.push], rfl, trivial⟩⟩
  | stackField s off =>
    rintro t - ht
    cases ht
    refine good_leaf (fun _ => rfl) (fun _ => rfl) ?_
    intro v hv
    simp only [Spec.value, Option.bind_eq_bind, Option.bind_eq_some_iff] at hv
    obtain ⟨st, e, hv⟩ := hv
    split at hv
    · cases hv
    rename_i h0
    obtain ⟨h, e', hv⟩ := Option.bind_eq_some_iff.mp hv
    obtain ⟨x, rfl, e1, e2⟩ := fieldVal_eq hv
    exact ⟨rfl, fun C st => ⟨.data (.field h off), by simp [step, e, h0, e', e1, St.push], ⟨e2 _ _, rfl⟩, trivial⟩⟩
  | union u =>
    rintro t - ht
    cases ht
    refine good_leaf (fun _ => rfl) (fun _ => rfl) ?_
    intro v hv
    simp only [Spec.value, Option.bind_eq_bind, Option.bind_eq_some_iff, Option.pure_def,
      Option.some.injEq] at hv
    obtain ⟨x, e, rfl⟩ := hv
    exact ⟨rfl, fun C st => ⟨.union u, by simp [step, e, St.push], rfl, trivial⟩⟩
  | unionStack s =>
    rintro t - ht
    cases ht
    refine good_leaf (fun _ => rfl) (fun _ => rfl) ?_
    intro v hv
    simp only [Spec.value, Option.bind_eq_bind, Option.bind_eq_some_iff, Option.pure_def,
      Option.some.injEq] at hv
    obtain ⟨x, e, rfl⟩ := hv
    exact ⟨rfl, fun C st => ⟨.stk (true, s), by simp [step, e, St.push], rfl, trivial⟩⟩
  | regGen a i ih =>
    intro t hn ht
    obtain ⟨h, rfl⟩ := if_ty ht
    exact good_un (ih _ hn h) (fun _ => rfl) (op_regGen env a)
  | not e ih =>
    intro t hn ht
    obtain ⟨h, rfl⟩ := if_ty ht
    exact good_un (ih _ hn h) (fun _ => rfl) (op_not env)
  | bitNeg e ih =>
    intro t hn ht
    obtain ⟨h, rfl⟩ := if_ty ht
    exact good_un (ih _ hn h) (fun _ => rfl) (op_bitNeg env 0)
  | valid e ih =>
    intro t hn ht
    obtain ⟨h, rfl⟩ := if_ty ht
    exact good_un (ih _ hn h) (fun _ => rfl) (op_valid env)
  | validUnion e ih =>
    intro t hn ht
    obtain ⟨h, rfl⟩ := if_ty ht
    exact good_un (ih _ hn h) (fun _ => rfl) (op_validUnion env)
  | d2b e ih =>
    intro t hn ht
    obtain ⟨h, rfl⟩ := if_ty ht
    exact good_un (ih _ hn h) (fun _ => rfl) (op_d2b env)
  | b2d e ih =>
    intro t hn ht
    obtain ⟨h, rfl⟩ := if_ty ht
    exact good_un (ih _ hn h) (fun _ => rfl) (op_b2d env 0)
  | lastIndex s ih =>
    intro t hn ht
    obtain ⟨h, rfl⟩ := if_ty ht
    rcases h with h | h
    · exact good_un (ih _ hn h) (fun _ => rfl) (op_lastIndex env 0 _ rfl)
    · exact good_un (ih _ hn h) (fun _ => rfl) (op_lastIndex env 0 _ rfl)
  | size s ih =>
    intro t hn ht
    obtain ⟨h, rfl⟩ := if_ty ht
    rcases h with h | h
    · exact good_un (ih _ hn h) (fun _ => rfl) (op_size env 0 _ rfl)
    · exact good_un (ih _ hn h) (fun _ => rfl) (op_size env 0 _ rfl)
  | accessField e off ih =>
    intro t hn ht
    obtain ⟨h, rfl⟩ := if_ty ht
    exact good_un (ih _ hn h) (fun _ => rfl) (op_accessField env off)
  | accessUnionHeader e off ih =>
    intro t hn ht
    exact hn.elim
  | arith o l r ihl ihr =>
    intro t hn ht
    obtain ⟨h, rfl⟩ := if_ty ht
    exact good_bin (ihl _ hn.1 h.1) (ihr _ hn.2 h.2) (fun _ => rfl) (op_arith env o 0)
  | ord o l r ihl ihr =>
    intro t hn ht
    obtain ⟨h, rfl⟩ := if_ty ht
    refine good_bin (ihl _ hn.1 h.1) (ihr _ hn.2 h.2) (fun _ => rfl) ((op_cmp env (.ord o)).congr ?_)
    intro v1 v2 v h1 h2 hv
    cases v1 <;> simp only [vty, reduceCtorEq] at h1
    cases v2 <;> simp only [vty, reduceCtorEq] at h2
    rw [← hv]
    cases o <;> rfl
  | and l r ihl ihr =>
    intro t hn ht
    obtain ⟨h, rfl⟩ := if_ty ht
    exact good_bin (ihl _ hn.1 h.1) (ihr _ hn.2 h.2) (fun _ => rfl)
      (op_bools env .and (· && ·) (fun _ => rfl) (fun _ _ _ _ => rfl))
  | or l r ihl ihr =>
    intro t hn ht
    obtain ⟨h, rfl⟩ := if_ty ht
    exact good_bin (ihl _ hn.1 h.1) (ihr _ hn.2 h.2) (fun _ => rfl)
      (op_bools env .or (· || ·) (fun _ => rfl) (fun _ _ _ _ => rfl))
  | derefHeader l r ihl ihr =>
    intro t hn ht
    obtain ⟨h, rfl⟩ := if_ty ht
    exact good_bin (ihl _ hn.1 h.1) (ihr _ hn.2 h.2) (fun _ => rfl) (op_derefHeader env)
  | derefUnion l r ihl ihr =>
    intro t hn ht
    obtain ⟨h, rfl⟩ := if_ty ht
    exact good_bin (ihl _ hn.1 h.1) (ihr _ hn.2 h.2) (fun _ => rfl) (op_derefUnion env)
  | unary minus e ih =>
    intro t hn ht
    obtain ⟨h, rfl⟩ := if_ty ht
    refine (good_bin (good_const env 0) (ih _ hn h) (fun _ => rfl)
      (op_arith env (if minus then .sub else .add) 0)).weaken ?_
    intro v hv
    obtain ⟨w, hw, hv⟩ := Option.bind_eq_some_iff.mp hv
    rw [hw]
    cases w <;> simp only [reduceCtorEq] at hv
    rw [← hv]
    cases minus <;> simp [Spec.arith]
  | cond c l r ihc ihl ihr =>
    intro t hn ht
    simp only [Spec.ty] at ht
    split at ht
    case isFalse => cases ht
    rename_i h
    exact good_cond (ihc _ hn.1 h.1) (ihl _ hn.2.1 ht) (ihr _ hn.2.2 (h.2 ▸ ht))
  | eq negated l r ihl ihr =>
    intro t hn ht
    obtain ⟨⟨h1, h2⟩, rfl⟩ := if_ty ht
    have key : ∀ t' op, Spec.ty l = some t' → eqOp negated t' = some op →
        OpBin env op t' t' .bool (fun v1 v2 => (Spec.eqVal env v1 v2).bind fun b =>
          some (.bool (b != negated))) →
        Good env (code (.eq negated l r)) .bool (Spec.value env (.eq negated l r)) := by
      intro t' op ht' hop hob
      have := good_bin (ihl _ hn.1 ht') (ihr _ hn.2 (h1 ▸ ht')) (plain_eqOp hop) hob
      simp only [code, ht', Option.bind_some, hop, Option.getD_some]
      refine this.weaken ?_
      intro v hv
      rw [← hv]
      simp only [Spec.value, Option.bind_eq_bind, Option.pure_def]
    rcases h2 with h2 | h2 | h2 | h2
    · refine key _ _ h2 rfl ((op_cmp env _).congr ?_)
      intro v1 v2 v h1 h2 hv
      cases v1 <;> simp only [vty, reduceCtorEq] at h1
      cases v2 <;> simp only [vty, reduceCtorEq] at h2
      rw [← hv]
      cases negated <;> simp [cmpOp, Spec.eqVal]
    · exact key _ _ h2 rfl (op_headers env negated)
    · refine key _ _ h2 rfl ((op_bools env (.eqBool negated) (fun a b => if negated then a != b else a == b)
        (fun _ => rfl) (fun _ _ _ _ => rfl)).congr ?_)
      intro v1 v2 v h1 h2 hv
      cases v1 <;> simp only [vty, reduceCtorEq] at h1
      cases v2 <;> simp only [vty, reduceCtorEq] at h2
      rw [← hv]
      rename_i a b
      revert a b
      cases negated <;> simp [Spec.eqVal] 
    · exact key _ _ h2 rfl (op_unions env negated)

end Bm.Ex
