import Verif.Lemmas.Expr

/-!
# Compiled expressions: each operation does its part
-/

namespace Bm.Ex

open Bm.Ex.Spec (Val)
open Code

/-! ## The operators on numbers and headers -/

theorem count_eq {v : Int} {n : Nat} (h : Spec.count (2 ^ 32) v = some n) :
    v = (n : Int) ∧ n < 2 ^ 32 ∧ Data.getUint v = some n := by
  unfold Spec.count at h
  split at h <;> simp only [Option.some.injEq, reduceCtorEq] at h
  rename_i hv
  subst h
  have h1 : v = (v.toNat : Int) := by omega
  refine ⟨h1, by omega, ?_⟩
  rw [h1, Data.getUint_of (by omega)]
  rfl

theorem toSize_eq {v : Int} {n : Nat} (h : Spec.count (2 ^ 64) v = some n) : toSize v = some n := by
  simp only [Spec.count] at h
  unfold toSize
  exact_mod_cast h

theorem binOp_eq (o : BinOp) {a b v : Int} (h : Spec.arith o a b = some v) : binOp o a b = some v := by
  cases o <;> simp only [Spec.arith] at h
  case add | sub | mul | and | or | xor => exact h
  case mod =>
    split at h <;> simp only [Option.some.injEq, reduceCtorEq] at h
    rename_i hab
    subst h
    simp only [binOp, Data.mod, hab, and_self, if_true, Option.some.injEq]
    exact Int.tmod_eq_emod_of_nonneg hab.1
  case div =>
    split at h <;> simp only [Option.some.injEq, reduceCtorEq] at h
    rename_i hab
    subst h
    simp only [binOp, Data.divide, hab, and_self, if_true, Option.some.injEq]
    exact Int.tdiv_eq_ediv_of_nonneg hab.1
  case shl =>
    obtain ⟨n, hn, h⟩ := Option.bind_eq_some_iff.mp h
    obtain ⟨hb, _, hu⟩ := count_eq hn
    simp only [binOp, Data.shiftLeft, hu, Option.bind_eq_bind, Option.bind_some]
    rw [if_pos (by omega)]
    exact h
  case shr =>
    obtain ⟨n, hn, h⟩ := Option.bind_eq_some_iff.mp h
    obtain ⟨hb, _, hu⟩ := count_eq hn
    simp only [binOp, Data.shiftRight, hu, Option.bind_eq_bind, Option.bind_some]
    rw [if_pos (by omega)]
    exact h
  case twoComp =>
    obtain ⟨n, hn, h⟩ := Option.bind_eq_some_iff.mp h
    obtain ⟨hb, hlt, hu⟩ := count_eq hn
    split at h <;> simp only [Option.some.injEq, reduceCtorEq, Option.pure_def] at h
    rename_i hn0
    obtain ⟨r, h1, _, h3⟩ := Data.C46_two_comp_mod a n (by omega) hlt
    have h1' : binOp .twoComp a b = some r := by rw [hb]; exact h1
    rw [h1', ← h]
    clear hn hu hlt h1 h1' hb
    refine congrArg some ?_
    have h2 : (2 ^ n : Int) = 2 * 2 ^ (n - 1) := by
      obtain ⟨k, rfl⟩ : ∃ k, n = k + 1 := ⟨n - 1, by omega⟩
      rw [Nat.add_sub_cancel, pow_succ]; ring
    have hpos : (0 : Int) < 2 ^ n := by positivity
    have e1 := Int.emod_lt_of_pos (a + 2 ^ (n - 1)) hpos
    have e2 := Int.emod_nonneg (a + 2 ^ (n - 1)) (ne_of_gt hpos)
    have e3 : (2 ^ n : Int) ∣ (a + 2 ^ (n - 1)) - (a + 2 ^ (n - 1)) % 2 ^ n := Int.dvd_self_sub_emod
    refine (h3 _ (by omega) (by omega) ?_).symm
    have e4 : a - ((a + 2 ^ (n - 1)) % 2 ^ n - 2 ^ (n - 1)) =
      (a + 2 ^ (n - 1)) - (a + 2 ^ (n - 1)) % 2 ^ n := by omega
    rw [e4]
    exact e3
  case usat =>
    obtain ⟨n, hn, h⟩ := Option.bind_eq_some_iff.mp h
    obtain ⟨hb, _, hu⟩ := count_eq hn
    simp only [Option.pure_def, Option.some.injEq] at h
    subst h
    simp only [binOp, Data.usatCast, hu, Option.bind_eq_bind, Option.bind_some, Option.pure_def,
      Option.some.injEq]
    have hpos : (0 : Int) < 2 ^ n := by positivity
    generalize (2 ^ n : Int) = M at *
    split
    · omega
    · split <;> omega
  case sat =>
    obtain ⟨n, hn, h⟩ := Option.bind_eq_some_iff.mp h
    obtain ⟨hb, _, hu⟩ := count_eq hn
    split at h <;> simp only [Option.some.injEq, reduceCtorEq, Option.pure_def] at h
    rename_i hn0
    subst h
    simp only [binOp, Data.satCast, hu, Option.bind_eq_bind, Option.bind_some, Option.pure_def,
      Option.some.injEq, if_neg hn0]
    have hpos : (0 : Int) < 2 ^ (n - 1) := by positivity
    generalize (2 ^ (n - 1) : Int) = M at *
    split
    · omega
    · split <;> omega

theorem cmpFields_eq : ∀ (fs gs : List Field), (∀ f ∈ fs ++ gs, f.arith = true) →
    Header.cmpFields fs gs = some (fs.map (·.value) == gs.map (·.value))
  | [], [], _ => rfl
  | [], g :: gs, _ => rfl
  | f :: fs, [], _ => rfl
  | f :: fs, g :: gs, h => by
    have h1 : f.arith = true := h f (by simp)
    have h2 : g.arith = true := h g (by simp)
    have ih := cmpFields_eq fs gs fun x hx => h x (by
      simp only [List.mem_append, List.cons_append, List.mem_cons] at hx ⊢
      tauto)
    simp only [Header.cmpFields, h1, h2, Bool.and_self, if_true, ih, List.map_cons]
    by_cases e : f.value = g.value
    · simp [e]
    · simp [e]

theorem cmp_eq {x y : Header} {b : Bool} (h : Spec.headerEq x y = some b) : x.cmp y = some b := by
  unfold Spec.headerEq at h
  unfold Header.cmp Header.isValid
  simp only [Bool.or_eq_true] 
  split at h
  · rename_i hc
    rw [if_pos hc]
    split at h <;> simp only [Option.some.injEq, reduceCtorEq] at h
    rename_i ha
    rw [cmpFields_eq _ _ ha, h]
  · rename_i hc
    rw [if_neg hc]
    exact h

theorem unionCmp_eq {p : Phv} {x y : HUnion} {b : Bool} (h : Spec.unionEq p x y = some b) :
    unionCmp p x y = some b := by
  unfold Spec.unionEq at h
  unfold unionCmp
  split at h
  · rename_i hc
    rw [if_pos (by simp [hc])]
    simp only [Option.bind_eq_bind, Option.bind_eq_some_iff] at h ⊢
    obtain ⟨a, ha, c, hc', d, hd, f, hf, he⟩ := h
    exact ⟨a, ha, c, hc', d, by rw [hc.2.2]; exact hd, f, hf, cmp_eq he⟩
  · rename_i hc
    rw [if_neg (by simpa [Bool.and_eq_true, and_assoc] using hc)]
    exact h

/-! ## Reading -/

theorem fieldVal_eq {env : Env} {h off : Nat} {v : Val} (hv : Spec.fieldVal env h off = some v) :
    ∃ x, v = .data x (some (.field h off)) ∧ loadField env h off = some x ∧
      ∀ C T, get env C T (.field h off) = some x := by
  unfold Spec.fieldVal at hv
  simp only [Option.bind_eq_bind, Option.bind_eq_some_iff] at hv
  obtain ⟨hd, h1, f, h2, hv⟩ := hv
  split at hv <;> simp only [Option.some.injEq, reduceCtorEq, Option.pure_def] at hv
  rename_i ha
  have hl : loadField env h off = some (if (hd.metadata || hd.valid || f.hidden || !env.rz) = true
      then f.value else 0) := by
    simp only [loadField, h1, h2, Option.bind_eq_bind, Option.bind_some, Option.pure_def,
      Option.some.injEq, Field.getValue]
    have key : (env.rz && !hd.isValid && !f.hidden) = !(hd.metadata || hd.valid || f.hidden || !env.rz) :=
      (by decide : ∀ a b c d : Bool, (d && !(a || b) && !c) = !(a || b || c || !d)) _ _ _ _
    rw [key]
    by_cases e : (hd.metadata || hd.valid || f.hidden || !env.rz) = true
    · simp [e]
    · simp only [Bool.not_eq_true] at e
      simp [e]
  refine ⟨_, hv.symm, hl, fun C T => ?_⟩
  simp only [get, isArith, h1, h2, Option.any_some, ha, if_true, load, hl]

theorem regVal_eq {env : Env} {a i : Nat} {v : Val} (hv : Spec.regVal env a i = some v) :
    ∃ arr x, v = .data x (some (.reg a i)) ∧ env.regs[a]? = some arr ∧ arr[i]? = some x ∧
      ∀ C T, get env C T (.reg a i) = some x := by
  unfold Spec.regVal at hv
  simp only [Option.bind_eq_bind, Option.bind_eq_some_iff, Option.pure_def, Option.some.injEq] at hv
  obtain ⟨arr, h1, x, h2, hv⟩ := hv
  exact ⟨arr, x, hv.symm, h1, h2, fun C T => by simp [get, isArith, load, h1, h2]⟩

theorem Rel.data {env : Env} {C T : List Int} {v : Int} {loc : Option Loc} {i : Item}
    (h : Rel env C T (.data v loc) i) : ∃ r, i = .data r ∧ get env C T r = some v := by
  cases i <;> first | exact h.elim | exact ⟨_, rfl, h.1⟩

theorem Rel.bool {env : Env} {C T : List Int} {b : Bool} {i : Item}
    (h : Rel env C T (.bool b) i) : i = .bool b := by
  cases i <;> first | exact h.elim | rw [show b = _ from h]

theorem Rel.header {env : Env} {C T : List Int} {b : Nat} {i : Item}
    (h : Rel env C T (.header b) i) : i = .header b := by
  cases i <;> first | exact h.elim | rw [show b = _ from h]

theorem Rel.union {env : Env} {C T : List Int} {b : Nat} {i : Item}
    (h : Rel env C T (.union b) i) : i = .union b := by
  cases i <;> first | exact h.elim | rw [show b = _ from h]

theorem Rel.headerStack {env : Env} {C T : List Int} {b : Nat} {i : Item}
    (h : Rel env C T (.headerStack b) i) : i = .stk (false, b) := by
  cases i <;> first | exact h.elim | rw [show _ = (false, b) from h]

theorem Rel.unionStack {env : Env} {C T : List Int} {b : Nat} {i : Item}
    (h : Rel env C T (.unionStack b) i) : i = .stk (true, b) := by
  cases i <;> first | exact h.elim | rw [show _ = (true, b) from h]

/-! ## Operations -/

theorem pop_cons (a : Nat) (S : List Nat) : Regs.pop ⟨(a :: S).sum, a :: S⟩ = some ⟨S.sum, S⟩ := by
  simp [Regs.pop]

theorem push1_eq (S : List Nat) : Regs.push1 ⟨S.sum, S⟩ = ⟨([1] ++ S).sum, [1] ++ S⟩ := by
  simp [Regs.push1, Nat.add_comm]

theorem push0_eq (S : List Nat) : Regs.push0 ⟨S.sum, S⟩ = ⟨([0] ++ S).sum, [0] ++ S⟩ := by
  simp [Regs.push0]

/-- Storing a result in the temporary `S.sum`. -/
theorem store_eq {env : Env} (C : List Int) (st : St) (T : List Int) (S : List Nat) (v : Int)
    (h : ([1] ++ S).sum ≤ T.length) :
    ∃ T', (st.withT T).store S.sum v = some ((st.withT T').push (.data (.temp S.sum))) ∧
      Agree S.sum T T' ∧ Rel env C T' (.data v none) (.data (.temp S.sum)) ∧
      Bound ([1] ++ S).sum (.data (.temp S.sum)) := by
  have hlt : S.sum < T.length := by simp at h; omega
  refine ⟨T.set S.sum v, ?_, Agree.set T v (Nat.le_refl _), ⟨?_, S.sum, rfl⟩, ?_⟩
  · have : S.sum < (st.withT T).temps.length := hlt
    simp only [St.store, if_pos this]
    rfl
  · simp [get, isArith, load, hlt]
  · simp [Bound]

theorem len1 {A : List Nat} (h : A.length = 1) : ∃ a, A = [a] := List.length_eq_one_iff.mp h

theorem len2 {A : List Nat} (h : A.length = 2) : ∃ a b, A = [a, b] := by
  match A, h with
  | [a, b], _ => exact ⟨a, b, rfl⟩

theorem op_arith (env : Env) (o : BinOp) (dest : Nat) :
    OpBin env (.bin o dest) .data .data .data (fun v1 v2 => match v1, v2 with
      | .data a _, .data b _ => (Spec.arith o a b).bind fun x => some (.data x none)
      | _, _ => none) := by
  intro A S hA
  obtain ⟨a, b, rfl⟩ := len2 hA
  refine ⟨.bin o S.sum, [1], ?_, by simp [nd], ?_⟩
  · simp only [assignOp, List.cons_append, List.nil_append, pop_cons, Option.bind_eq_bind,
      Option.bind_some, Option.pure_def, push1_eq]
  · intro C v1 v2 v' h1 h2 hf
    cases v1 <;> simp only [vty, reduceCtorEq] at h1
    cases v2 <;> simp only [vty, reduceCtorEq] at h2
    obtain ⟨x, hx, hf⟩ := Option.bind_eq_some_iff.mp hf
    cases hf
    refine ⟨rfl, fun T st i1 i2 q1 q2 hlen => ?_⟩
    obtain ⟨r1, rfl, g1⟩ := q1.data
    obtain ⟨r2, rfl, g2⟩ := q2.data
    obtain ⟨T', hst, ha, hr, hb⟩ := store_eq (env := env) C st T S x hlen
    refine ⟨T', _, ?_, ha, hr, hb⟩
    have g1' : get env C (st.withT T).temps r1 = _ := g1
    have g2' : get env C (st.withT T).temps r2 = _ := g2
    have hst' : St.store { st.withT T with data := (st.withT T).data } S.sum x = _ := hst
    simp only [step, St.push, St.popData, Option.bind_eq_bind, Option.bind_some, g1', g2', binOp_eq o hx,
      hst', Option.pure_def]

theorem op_cmp (env : Env) (o : CmpOp) :
    OpBin env (.cmp o) .data .data .bool (fun v1 v2 => match v1, v2 with
      | .data a _, .data b _ => some (.bool (cmpOp o a b))
      | _, _ => none) := by
  intro A S hA
  obtain ⟨a, b, rfl⟩ := len2 hA
  refine ⟨.cmp o, [], ?_, by simp [nd], ?_⟩
  · simp only [assignOp, List.cons_append, List.nil_append, pop_cons, Option.bind_eq_bind,
      Option.bind_some, Option.pure_def]
  · intro C v1 v2 v' h1 h2 hf
    cases v1 <;> simp only [vty, reduceCtorEq] at h1
    cases v2 <;> simp only [vty, reduceCtorEq] at h2
    cases hf
    refine ⟨rfl, fun T st i1 i2 q1 q2 hlen => ?_⟩
    obtain ⟨r1, rfl, g1⟩ := q1.data
    obtain ⟨r2, rfl, g2⟩ := q2.data
    refine ⟨T, .bool _, ?_, Agree.refl _ _, rfl, trivial⟩
    have g1' : get env C (st.withT T).temps r1 = _ := g1
    have g2' : get env C (st.withT T).temps r2 = _ := g2
    simp only [step, St.push, St.popData, Option.bind_eq_bind, Option.bind_some, g1', g2',
      Option.pure_def]

/-- Operations with two truth values. -/
theorem op_bools (env : Env) (op : Op) (g : Bool → Bool → Bool)
    (ha : ∀ r, assignOp op r = some (op, r))
    (hs : ∀ C (st : St) a b, step env C op ((st.push (.bool a)).push (.bool b)) =
      some (0, st.push (.bool (g a b)))) :
    OpBin env op .bool .bool .bool (fun v1 v2 => match v1, v2 with
      | .bool a, .bool b => some (.bool (g a b))
      | _, _ => none) := by
  intro A S hA
  obtain rfl := List.length_eq_zero_iff.mp hA
  refine ⟨op, [], by rw [ha], by simp [nd], ?_⟩
  intro C v1 v2 v' h1 h2 hf
  cases v1 <;> simp only [vty, reduceCtorEq] at h1
  cases v2 <;> simp only [vty, reduceCtorEq] at h2
  cases hf
  refine ⟨rfl, fun T st i1 i2 q1 q2 hlen => ?_⟩
  obtain rfl := q1.bool
  obtain rfl := q2.bool
  exact ⟨T, .bool _, hs C _ _ _, Agree.refl _ _, rfl, trivial⟩

theorem op_headers (env : Env) (negated : Bool) :
    OpBin env (.eqHeader negated) .header .header .bool (fun v1 v2 =>
      (Spec.eqVal env v1 v2).bind fun b => some (.bool (b != negated))) := by
  intro A S hA
  obtain rfl := List.length_eq_zero_iff.mp hA
  refine ⟨_, [], rfl, by simp [nd], ?_⟩
  intro C v1 v2 v' h1 h2 hf
  cases v1 <;> simp only [vty, reduceCtorEq] at h1
  cases v2 <;> simp only [vty, reduceCtorEq] at h2
  obtain ⟨b, hb, hf⟩ := Option.bind_eq_some_iff.mp hf
  cases hf
  refine ⟨rfl, fun T st i1 i2 q1 q2 hlen => ?_⟩
  obtain rfl := q1.header
  obtain rfl := q2.header
  simp only [Spec.eqVal, Option.bind_eq_bind, Option.bind_eq_some_iff] at hb
  obtain ⟨x, hx, y, hy, hb⟩ := hb
  refine ⟨T, .bool (b != negated), ?_, Agree.refl _ _, rfl, trivial⟩
  simp only [step, St.push, St.popHeader, Option.bind_eq_bind, Option.bind_some, hx, hy, cmp_eq hb,
    Option.pure_def]
  cases negated <;> cases b <;> rfl

theorem op_unions (env : Env) (negated : Bool) :
    OpBin env (.eqUnion negated) .union .union .bool (fun v1 v2 =>
      (Spec.eqVal env v1 v2).bind fun b => some (.bool (b != negated))) := by
  intro A S hA
  obtain rfl := List.length_eq_zero_iff.mp hA
  refine ⟨_, [], rfl, by simp [nd], ?_⟩
  intro C v1 v2 v' h1 h2 hf
  cases v1 <;> simp only [vty, reduceCtorEq] at h1
  cases v2 <;> simp only [vty, reduceCtorEq] at h2
  obtain ⟨b, hb, hf⟩ := Option.bind_eq_some_iff.mp hf
  cases hf
  refine ⟨rfl, fun T st i1 i2 q1 q2 hlen => ?_⟩
  obtain rfl := q1.union
  obtain rfl := q2.union
  simp only [Spec.eqVal, Option.bind_eq_bind, Option.bind_eq_some_iff] at hb
  obtain ⟨x, hx, y, hy, hb⟩ := hb
  refine ⟨T, .bool (b != negated), ?_, Agree.refl _ _, rfl, trivial⟩
  simp only [step, St.push, St.popUnion, Option.bind_eq_bind, Option.bind_some, hx, hy, unionCmp_eq hb,
    Option.pure_def]
  cases negated <;> cases b <;> rfl

theorem op_derefHeader (env : Env) :
    OpBin env .derefHeaderStack .headerStack .data .header (fun v1 v2 => match v1, v2 with
      | .headerStack s, .data v _ => do
        return .header (← (← env.phv.hstacks[s]?).elements[← Spec.count (2 ^ 64) v]?)
      | _, _ => none) := by
  intro A S hA
  obtain ⟨a, rfl⟩ := len1 hA
  refine ⟨.derefHeaderStack, [], ?_, by simp [nd], ?_⟩
  · simp only [assignOp, List.cons_append, List.nil_append, pop_cons, Option.bind_eq_bind,
      Option.bind_some, Option.pure_def]
  · intro C v1 v2 v' h1 h2 hf
    cases v1 <;> simp only [vty, reduceCtorEq] at h1
    cases v2 <;> simp only [vty, reduceCtorEq] at h2
    simp only [Option.bind_eq_bind, Option.bind_eq_some_iff, Option.pure_def, Option.some.injEq] at hf
    obtain ⟨hs, e1, n, e2, h, e3, rfl⟩ := hf
    refine ⟨rfl, fun T st i1 i2 q1 q2 hlen => ?_⟩
    obtain rfl := q1.headerStack
    obtain ⟨r2, rfl, g2⟩ := q2.data
    refine ⟨T, .header h, ?_, Agree.refl _ _, rfl, trivial⟩
    have g2' : get env C (st.withT T).temps r2 = _ := g2
    simp [step, St.push, St.popData, St.popStack, e1, g2', toSize_eq e2, e3]

theorem op_derefUnion (env : Env) :
    OpBin env .derefUnionStack .unionStack .data .union (fun v1 v2 => match v1, v2 with
      | .unionStack s, .data v _ => do
        return .union (← (← env.phv.unionStacks[s]?).elements[← Spec.count (2 ^ 64) v]?)
      | _, _ => none) := by
  intro A S hA
  obtain ⟨a, rfl⟩ := len1 hA
  refine ⟨.derefUnionStack, [], ?_, by simp [nd], ?_⟩
  · simp only [assignOp, List.cons_append, List.nil_append, pop_cons, Option.bind_eq_bind,
      Option.bind_some, Option.pure_def]
  · intro C v1 v2 v' h1 h2 hf
    cases v1 <;> simp only [vty, reduceCtorEq] at h1
    cases v2 <;> simp only [vty, reduceCtorEq] at h2
    simp only [Option.bind_eq_bind, Option.bind_eq_some_iff, Option.pure_def, Option.some.injEq] at hf
    obtain ⟨hs, e1, n, e2, h, e3, rfl⟩ := hf
    refine ⟨rfl, fun T st i1 i2 q1 q2 hlen => ?_⟩
    obtain rfl := q1.unionStack
    obtain ⟨r2, rfl, g2⟩ := q2.data
    refine ⟨T, .union h, ?_, Agree.refl _ _, rfl, trivial⟩
    have g2' : get env C (st.withT T).temps r2 = _ := g2
    simp [step, St.push, St.popData, St.popStack, e1, g2', toSize_eq e2, e3]

theorem op_regGen (env : Env) (a : Nat) :
    OpUn env (.loadRegGen a) .data .data (fun v => match v with
      | .data v _ => (Spec.count (2 ^ 64) v).bind fun i => Spec.regVal env a i
      | _ => none) := by
  intro A S hA
  obtain ⟨b, rfl⟩ := len1 hA
  refine ⟨.loadRegGen a, [0], ?_, by simp [nd], ?_⟩
  · simp only [assignOp, List.cons_append, List.nil_append, pop_cons, Option.bind_eq_bind,
      Option.bind_some, Option.pure_def, push0_eq]
  · intro C v v' h1 hf
    cases v <;> simp only [vty, reduceCtorEq] at h1
    obtain ⟨n, hn, hf⟩ := Option.bind_eq_some_iff.mp hf
    obtain ⟨arr, x, rfl, e1, e2, e3⟩ := regVal_eq hf
    refine ⟨rfl, fun T st i q hlen => ?_⟩
    obtain ⟨r, rfl, g⟩ := q.data
    refine ⟨T, .data (.reg a n), ?_, Agree.refl _ _, ⟨e3 C T, rfl⟩, trivial⟩
    have g' : get env C (st.withT T).temps r = _ := g
    simp [step, St.push, St.popData, e1, g', toSize_eq hn, e2]

theorem op_not (env : Env) : OpUn env .not .bool .bool (fun v => match v with
      | .bool a => some (.bool (!a))
      | _ => none) := by
  intro A S hA
  obtain rfl := List.length_eq_zero_iff.mp hA
  refine ⟨_, [], rfl, by simp [nd], ?_⟩
  intro C v v' h1 hf
  cases v <;> simp only [vty, reduceCtorEq] at h1
  cases hf
  refine ⟨rfl, fun T st i q hlen => ?_⟩
  obtain rfl := q.bool
  exact ⟨T, .bool _, rfl, Agree.refl _ _, rfl, trivial⟩

theorem lnot_eq (a : Int) : Data.bitNeg a = -a - 1 := by
  unfold Data.bitNeg
  cases a with
  | ofNat n => simp only [Int.lnot, Int.ofNat_eq_natCast]; omega
  | negSucc n => simp only [Int.lnot]; omega

theorem op_bitNeg (env : Env) (dest : Nat) : OpUn env (.bitNeg dest) .data .data (fun v => match v with
      | .data a _ => some (.data (-a - 1) none)
      | _ => none) := by
  intro A S hA
  obtain ⟨b, rfl⟩ := len1 hA
  refine ⟨.bitNeg S.sum, [1], ?_, by simp [nd], ?_⟩
  · simp only [assignOp, List.cons_append, List.nil_append, pop_cons, Option.bind_eq_bind,
      Option.bind_some, Option.pure_def, push1_eq]
  · intro C v v' h1 hf
    cases v <;> simp only [vty, reduceCtorEq] at h1
    cases hf
    rename_i a _
    refine ⟨rfl, fun T st i q hlen => ?_⟩
    obtain ⟨r, rfl, g⟩ := q.data
    obtain ⟨T', hst, ha, hr, hb⟩ := store_eq (env := env) C st T S (-a - 1) hlen
    refine ⟨T', _, ?_, ha, hr, hb⟩
    have g' : get env C (st.withT T).temps r = _ := g
    have hst' : St.store { st.withT T with data := (st.withT T).data } S.sum _ = _ := hst
    simp only [step, St.push, St.popData, Option.bind_eq_bind, Option.bind_some, g', lnot_eq,
      hst', Option.pure_def]

theorem op_valid (env : Env) : OpUn env .validHeader .header .bool (fun v => match v with
      | .header h => do let x ← env.phv.headers[h]?; return .bool (x.metadata || x.valid)
      | _ => none) := by
  intro A S hA
  obtain rfl := List.length_eq_zero_iff.mp hA
  refine ⟨_, [], rfl, by simp [nd], ?_⟩
  intro C v v' h1 hf
  cases v <;> simp only [vty, reduceCtorEq] at h1
  simp only [Option.bind_eq_bind, Option.bind_eq_some_iff, Option.pure_def, Option.some.injEq] at hf
  obtain ⟨x, e, rfl⟩ := hf
  refine ⟨rfl, fun T st i q hlen => ?_⟩
  obtain rfl := q.header
  refine ⟨T, .bool _, ?_, Agree.refl _ _, rfl, trivial⟩
  simp only [step, St.push, St.popHeader, e, Option.bind_eq_bind, Option.bind_some, Option.pure_def]
  rfl

theorem op_validUnion (env : Env) : OpUn env .validUnion .union .bool (fun v => match v with
      | .union u => do return .bool (← env.phv.unions[u]?).valid
      | _ => none) := by
  intro A S hA
  obtain rfl := List.length_eq_zero_iff.mp hA
  refine ⟨_, [], rfl, by simp [nd], ?_⟩
  intro C v v' h1 hf
  cases v <;> simp only [vty, reduceCtorEq] at h1
  simp only [Option.bind_eq_bind, Option.bind_eq_some_iff, Option.pure_def, Option.some.injEq] at hf
  obtain ⟨x, e, rfl⟩ := hf
  refine ⟨rfl, fun T st i q hlen => ?_⟩
  obtain rfl := q.union
  refine ⟨T, .bool _, ?_, Agree.refl _ _, rfl, trivial⟩
  simp only [step, St.push, St.popUnion, e, Option.bind_eq_bind, Option.bind_some, Option.pure_def]

theorem load_of_get {env : Env} {C T : List Int} {r : Ref} {v : Int} (h : get env C T r = some v) :
    load env C T r = some v := by
  unfold get at h
  split at h <;> simp_all

theorem op_d2b (env : Env) : OpUn env .d2b .data .bool (fun v => match v with
      | .data a _ => some (.bool (a != 0))
      | _ => none) := by
  intro A S hA
  obtain ⟨b, rfl⟩ := len1 hA
  refine ⟨.d2b, [], ?_, by simp [nd], ?_⟩
  · simp only [assignOp, List.cons_append, List.nil_append, pop_cons, Option.bind_eq_bind,
      Option.bind_some, Option.pure_def]
  · intro C v v' h1 hf
    cases v <;> simp only [vty, reduceCtorEq] at h1
    cases hf
    refine ⟨rfl, fun T st i q hlen => ?_⟩
    obtain ⟨r, rfl, g⟩ := q.data
    refine ⟨T, .bool _, ?_, Agree.refl _ _, rfl, trivial⟩
    have g' : load env C (st.withT T).temps r = _ := load_of_get g
    simp only [step, St.push, St.popData, g', Option.bind_eq_bind, Option.bind_some, Option.pure_def]
    rfl

theorem op_b2d (env : Env) (dest : Nat) : OpUn env (.b2d dest) .bool .data (fun v => match v with
      | .bool a => some (.data (if a then 1 else 0) none)
      | _ => none) := by
  intro A S hA
  obtain rfl := List.length_eq_zero_iff.mp hA
  refine ⟨.b2d S.sum, [1], ?_, by simp [nd], ?_⟩
  · simp only [assignOp, List.nil_append, push1_eq]
  · intro C v v' h1 hf
    cases v <;> simp only [vty, reduceCtorEq] at h1
    cases hf
    rename_i a
    refine ⟨rfl, fun T st i q hlen => ?_⟩
    obtain rfl := q.bool
    obtain ⟨T', hst, ha, hr, hb⟩ := store_eq (env := env) C st T S (if a then 1 else 0) hlen
    refine ⟨T', _, ?_, ha, hr, hb⟩
    have hst' : St.store { st.withT T with bools := (st.withT T).bools } S.sum _ = _ := hst
    simp only [step, St.push, St.popBool, Option.bind_eq_bind, Option.bind_some, hst', Option.pure_def]

theorem op_accessField (env : Env) (off : Nat) :
    OpUn env (.accessField off) .header .data (fun v => match v with
      | .header h => Spec.fieldVal env h off
      | _ => none) := by
  intro A S hA
  obtain rfl := List.length_eq_zero_iff.mp hA
  refine ⟨.accessField off, [0], ?_, by simp [nd], ?_⟩
  · simp only [assignOp, List.nil_append, push0_eq]
  · intro C v v' h1 hf
    cases v <;> simp only [vty, reduceCtorEq] at h1
    rename_i h
    obtain ⟨x, rfl, e1, e2⟩ := fieldVal_eq hf
    refine ⟨rfl, fun T st i q hlen => ?_⟩
    obtain rfl := q.header
    refine ⟨T, .data (.field h off), ?_, Agree.refl _ _, ⟨e2 C T, rfl⟩, trivial⟩
    simp only [step, St.push, St.popHeader, e1, Option.bind_eq_bind, Option.bind_some, Option.pure_def]

theorem stackCount_eq {env : Env} {C T : List Int} {v : Val} {i : Item} {s : Stack}
    (h : Rel env C T v i) (hs : Spec.stackOf env v = some s) :
    ∃ k, i = .stk k ∧ stackCount env k = some s.next := by
  cases v <;> simp only [Spec.stackOf, reduceCtorEq] at hs
  · obtain rfl := h.headerStack
    exact ⟨_, rfl, by simp [stackCount, hs]⟩
  · obtain rfl := h.unionStack
    exact ⟨_, rfl, by simp [stackCount, hs]⟩

theorem op_size (env : Env) (dest : Nat) (t : Ty) (ht : nd t = 0) :
    OpUn env (.sizeStack dest) t .data
      (fun v => (Spec.stackOf env v).bind fun s => some (.data s.next none)) := by
  intro A S hA
  rw [ht] at hA
  obtain rfl := List.length_eq_zero_iff.mp hA
  refine ⟨.sizeStack S.sum, [1], ?_, by simp [nd], ?_⟩
  · simp only [assignOp, List.nil_append, push1_eq]
  · intro C v v' h1 hf
    obtain ⟨s, hs, hf⟩ := Option.bind_eq_some_iff.mp hf
    cases hf
    refine ⟨rfl, fun T st i q hlen => ?_⟩
    obtain ⟨k, rfl, hk⟩ := stackCount_eq q hs
    obtain ⟨T', hst, ha, hr, hb⟩ := store_eq (env := env) C st T S s.next hlen
    refine ⟨T', _, ?_, ha, hr, hb⟩
    have hst' : St.store { st.withT T with stks := (st.withT T).stks } S.sum _ = _ := hst
    simp only [step, St.push, St.popStack, Option.bind_eq_bind, Option.bind_some, hk, hst',
      Option.pure_def]

theorem op_lastIndex (env : Env) (dest : Nat) (t : Ty) (ht : nd t = 0) :
    OpUn env (.lastStackIndex dest) t .data (fun v => (Spec.stackOf env v).bind fun s =>
      if s.next = 0 then none else some (.data (s.next - 1 : Nat) none)) := by
  intro A S hA
  rw [ht] at hA
  obtain rfl := List.length_eq_zero_iff.mp hA
  refine ⟨.lastStackIndex S.sum, [1], ?_, by simp [nd], ?_⟩
  · simp only [assignOp, List.nil_append, push1_eq]
  · intro C v v' h1 hf
    obtain ⟨s, hs, hf⟩ := Option.bind_eq_some_iff.mp hf
    split at hf <;> simp only [Option.some.injEq, reduceCtorEq] at hf
    subst hf
    rename_i h0
    refine ⟨rfl, fun T st i q hlen => ?_⟩
    obtain ⟨k, rfl, hk⟩ := stackCount_eq q hs
    obtain ⟨T', hst, ha, hr, hb⟩ := store_eq (env := env) C st T S (s.next - 1 : Nat) hlen
    refine ⟨T', _, ?_, ha, hr, hb⟩
    have hst' : St.store { st.withT T with stks := (st.withT T).stks } S.sum _ = _ := hst
    have e : ((s.next - 1 : Nat) : Int) = (s.next : Int) - 1 := by omega
    rw [e] at hst'
    simp only [step, St.push, St.popStack, Option.bind_eq_bind, Option.bind_some, hk, if_neg h0, hst',
      Option.pure_def]

end Bm.Ex
