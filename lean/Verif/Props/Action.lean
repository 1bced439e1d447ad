import Verif.Lemmas.ActionRun
import Verif.Lemmas.ActionLoad

/-!
# C65: an action does the calls of the program

Full statement: for every action the loader accepts, every order in which the compiler may have the arguments
evaluated, and every number of temporaries there are, executing the action is doing the calls as the program has them.
It does not hold: `C65_growth` (the array of temporaries is grown while there are references into it) and
`C65_shared` (an expression and an element of a list are given the same temporary).  The theorems exclude the two cases.
-/

namespace Bm.Act
variable {σ X E : Type} {env : Env σ X E}

/-- How many expressions there are in the arguments. -/
def exprsOf (calls : List (Call σ X E)) : Nat := (calls.map fun c => (c.args.map Src.exprs).sum).sum

/-- No call has both an expression and a list with an expression. -/
def Unmixed (calls : List (Call σ X E)) : Prop :=
  ∀ c ∈ calls, (∃ a ∈ c.args, a.IsExpr) → ∀ a ∈ c.args, ¬ a.HasExpr

/-- The orders in which arguments are evaluated: each argument once; and from the last one to the first unless the
temporaries suffice for all expressions of the action. -/
def OrderFine (order : Nat → List Nat) (calls : List (Call σ X E)) (temps : List Int) : Prop :=
  (∀ n, (order n).Perm (List.range n)) ∧ ((∀ n, (order n).Pairwise (· > ·)) ∨ exprsOf calls < temps.length)

/-- **C65 (partial).** An action that was loaded does, step for step, the calls of the program: each primitive gets the
values its arguments have at the time of the call, whatever the temporaries held before, and the next call is the one
after it or the one a jump names.  Missing: orders other than from last to first when there are more expressions
than temporaries, and calls that mix an expression with a list with an expression. -/
theorem C65_action_partial {n k : Nat} {calls : List (Call σ X E)} {f : Fn σ X E} {order : Nat → List Nat}
    (hk : 1 ≤ k) (hlen : calls.length ≤ 2 ^ 63) (hmix : Unmixed calls) (e : (Fn.init n k).load calls = some f)
    (adata : List Int) (fuel : Nat) (temps : List Int) (s : σ) (ho : OrderFine order calls temps) :
    (Fn.run env f adata order fuel 0 (temps, s)).map (Outcome.map Prod.snd) = runCalls env adata calls fuel 0 s := by
  refine run_ok (load_ok calls (loaded_init hk) e) hlen hmix fuel 0 temps s ⟨ho.1, ?_⟩
  have := load_cnt calls e
  have h0 : (Fn.init n k : Fn σ X E).cnt = 0 := rfl
  rw [h0, Nat.zero_add] at this
  rw [this]
  exact ho.2

/-- **C65.** Every action whose calls fit is accepted by the loader, whatever actions were loaded before it. -/
theorem C65_loads {n k : Nat} (hk : 1 ≤ k) {calls : List (Call σ X E)} (h : ∀ c ∈ calls, c.Fits n) :
    ∃ f, (Fn.init n k : Fn σ X E).load calls = some f :=
  load_some calls (loaded_init hk).inv rfl h

/-- A call that does not jump. -/
def Call.Plain (c : Call σ X E) : Prop := ∃ n g, c.prim = .op n g

/-- One call. -/
def Call.once (env : Env σ X E) (adata : List Int) (s : σ) (c : Call σ X E) : Option σ := do
  let args ← c.args.mapM (Src.arg env adata s)
  match c.prim with
  | .op _ g => g args s
  | _ => none

theorem runCalls_plain {adata : List Int} (calls : List (Call σ X E)) (h : ∀ c ∈ calls, c.Plain) :
    ∀ (l done : List (Call σ X E)) (fuel : Nat) (s : σ), calls = done ++ l → l.length ≤ fuel →
      runCalls env adata calls fuel done.length s = (l.foldlM (Call.once env adata) s).map .done
  | [], done, fuel, s, e, _ => by
    subst e
    cases fuel <;> simp [runCalls]
  | c :: l, done, 0, s, e, hl => absurd hl (by simp)
  | c :: l, done, fuel + 1, s, e, hl => by
    have hc : calls[done.length]? = some c := by rw [e]; simp
    have ih := fun s' => runCalls_plain (adata := adata) calls h l (done ++ [c]) fuel s' (by rw [e]; simp)
      (by simpa using hl)
    obtain ⟨m, g, hg⟩ := h c (by rw [e]; simp)
    simp only [List.length_append, List.length_cons, List.length_nil] at ih
    rw [runCalls]
    simp only [hc, Option.bind_eq_bind, List.foldlM_cons, Call.once, hg]
    cases c.args.mapM (Src.arg env adata s) with
    | none => rfl
    | some args =>
      simp only [Option.bind_some, Prim.perform]
      cases g args s with
      | none => rfl
      | some s' =>
        simp only [Option.map_some, Option.bind_some]
        exact ih s'

/-- **C65 (partial), actions without jumps.** Every primitive is executed once, in the order of the program, each on the
state the one before it left. -/
theorem C65_straight_partial {n k : Nat} {calls : List (Call σ X E)} {f : Fn σ X E} {order : Nat → List Nat}
    (hk : 1 ≤ k) (hlen : calls.length ≤ 2 ^ 63) (hmix : Unmixed calls) (e : (Fn.init n k).load calls = some f)
    (hp : ∀ c ∈ calls, c.Plain) (adata : List Int) (temps : List Int) (s : σ) (ho : OrderFine order calls temps)
    {fuel : Nat} (hf : calls.length ≤ fuel) :
    (Fn.run env f adata order fuel 0 (temps, s)).map (Outcome.map Prod.snd)
      = (calls.foldlM (Call.once env adata) s).map .done := by
  rw [C65_action_partial hk hlen hmix e adata fuel temps s ho]
  exact runCalls_plain calls hp calls [] fuel s rfl hf

/-- The jumps name a later call, with a constant. -/
def Forward (calls : List (Call σ X E)) : Prop :=
  ∀ (pc : Nat) (c : Call σ X E), calls[pc]? = some c →
    (c.prim = .jump → ∃ v : Int, c.args = [.atom (.hex v)] ∧ (pc : Int) < v) ∧
    (c.prim = .jumpIfZero → ∃ t, ∃ v : Int, c.args = [t, .atom (.hex v)] ∧ (pc : Int) < v)

theorem perform_forward {adata : List Int} {calls : List (Call σ X E)} (h : Forward calls) {pc : Nat} {c : Call σ X E}
    (hc : calls[pc]? = some c) {s : σ} {args : List (Arg X)} (ha : c.args.mapM (Src.arg env adata s) = some args)
    {pc' : Nat} {s' : σ} (e : c.prim.perform env args pc s = some (some pc', s')) : pc < pc' := by
  obtain ⟨h1, h2⟩ := h pc c hc
  cases hp : c.prim with
  | op m g =>
    rw [hp] at e
    simp only [Prim.perform, Option.map_eq_some_iff, Prod.mk.injEq, Option.some.injEq] at e
    obtain ⟨_, _, rfl, _⟩ := e
    omega
  | jump =>
    obtain ⟨v, hv, hlt⟩ := h1 hp
    rw [hv] at ha
    simp [Src.arg] at ha
    subst ha
    rw [hp] at e
    simp only [Prim.perform, Option.bind_eq_bind] at e
    obtain ⟨o, ho, e⟩ := Option.bind_eq_some_iff.1 e
    simp only [Arg.int, Option.bind_some, Option.ite_none_right_eq_some, Option.some.injEq] at ho
    obtain ⟨_, rfl⟩ := ho
    rw [if_neg (by omega)] at e
    cases e
    omega
  | jumpIfZero =>
    obtain ⟨t, v, hv, hlt⟩ := h2 hp
    rw [hv] at ha
    simp only [List.mapM_cons, List.mapM_nil, Src.arg, Option.bind_eq_bind, Option.bind_some, Option.pure_def] at ha
    obtain ⟨ta, hta, ha⟩ := Option.bind_eq_some_iff.1 ha
    cases ha
    rw [hp] at e
    simp only [Prim.perform, Option.bind_eq_bind] at e
    obtain ⟨o, ho, e⟩ := Option.bind_eq_some_iff.1 e
    by_cases h0 : o = 0
    · rw [if_pos h0] at e
      obtain ⟨o', ho', e⟩ := Option.bind_eq_some_iff.1 e
      simp only [Arg.int, Option.bind_some, Option.ite_none_right_eq_some, Option.some.injEq] at ho'
      obtain ⟨_, rfl⟩ := ho'
      rw [if_neg (by omega)] at e
      cases e
      omega
    · rw [if_neg h0] at e
      cases e
      omega

theorem runCalls_forward {adata : List Int} {calls : List (Call σ X E)} (h : Forward calls) :
    ∀ (fuel pc : Nat) (s : σ), calls.length ≤ pc + fuel → ∀ r, runCalls env adata calls fuel pc s = some r →
      ∃ s', r = .done s' := by
  intro fuel
  induction fuel with
  | zero =>
    intro pc s hl r e
    simp only [runCalls] at e
    rw [if_neg (by omega)] at e
    cases e
    exact ⟨_, rfl⟩
  | succ fuel ih =>
    intro pc s hl r e
    rw [runCalls] at e
    cases hc : calls[pc]? with
    | none => simp only [hc] at e; cases e; exact ⟨_, rfl⟩
    | some c =>
      simp only [hc, Option.bind_eq_bind] at e
      obtain ⟨args, ha, e⟩ := Option.bind_eq_some_iff.1 e
      obtain ⟨⟨o, s'⟩, he, e⟩ := Option.bind_eq_some_iff.1 e
      cases o with
      | none => cases e; exact ⟨_, rfl⟩
      | some pc' =>
        have := perform_forward h hc ha he
        exact ih pc' s' (by omega) r e

/-- **C65 (partial), actions with forward jumps.** The action ends, after at most as many steps as it has calls. -/
theorem C65_forward_partial {n k : Nat} {calls : List (Call σ X E)} {f : Fn σ X E} {order : Nat → List Nat}
    (hk : 1 ≤ k) (hlen : calls.length ≤ 2 ^ 63) (hmix : Unmixed calls) (e : (Fn.init n k).load calls = some f)
    (hj : Forward calls) (adata : List Int) (temps : List Int) (s : σ) (ho : OrderFine order calls temps)
    {fuel : Nat} (hf : calls.length ≤ fuel) {r : Outcome (List Int × σ)}
    (hr : Fn.run env f adata order fuel 0 (temps, s) = some r) : ∃ t s', r = .done (t, s') := by
  have := C65_action_partial (env := env) hk hlen hmix e adata fuel temps s ho
  rw [hr] at this
  obtain ⟨s', hs'⟩ := runCalls_forward hj fuel 0 s (by omega) _ this.symm
  cases r with
  | done x => exact ⟨x.1, x.2, rfl⟩
  | running pc x => cases hs'

end Bm.Act

/-! ## Examples -/

namespace Bm.Act.Ex

/-- Fields by number; the expressions are sums of a field and a parameter. -/
def env : Env (List Int) Nat (Nat × Nat) where
  rd x s := s[x]?
  ev e d s := do return (← s[e.1]?) + (← d[e.2]?)

/-- `assign`. -/
def assign : Prim (List Int) Nat := .op 2 fun
  | [.named x, .num v], s => if x < s.length then some (s.set x v) else none
  | [.named x, .named y], s => do if x < s.length then some (s.set x (← s[y]?)) else none
  | _, _ => none

/-- `assign` the difference. -/
def minus : Prim (List Int) Nat := .op 3 fun
  | [.named x, .num v, .num w], s => if x < s.length then some (s.set x (v - w)) else none
  | _, _ => none

/-- `assign` the difference of a value and the sum of a list. -/
def minusSum : Prim (List Int) Nat := .op 3 fun
  | [.named x, .num v, .nums w], s => if x < s.length then some (s.set x (v - w.sum)) else none
  | _, _ => none

/-- `f0 = p0; if (f1 + p1 == 0) skip; f2 = (f0 + p0) - (f1 + p1); f0 = f2`. -/
def prog : List (Call (List Int) Nat (Nat × Nat)) :=
  [⟨assign, [.atom (.named 0), .atom (.data 0)]⟩,
   ⟨.jumpIfZero, [.atom (.expr (1, 1)), .atom (.hex 3)]⟩,
   ⟨minus, [.atom (.named 2), .atom (.expr (0, 0)), .atom (.expr (1, 1))]⟩,
   ⟨assign, [.atom (.named 0), .atom (.named 2)]⟩]

/-- From the last argument to the first. -/
def rtl (n : Nat) : List Nat := (List.range n).reverse

/-- From the first argument to the last. -/
def ltr (n : Nat) : List Nat := List.range n

/-- Loading and running. -/
def go (order : Nat → List Nat) (temps : List Int) (calls : List (Call (List Int) Nat (Nat × Nat))) (adata s : List Int) :
    Option (Outcome (List Int)) := do
  let f ← (Fn.init adata.length 1).load calls
  (Fn.run env f adata order 10 0 (temps, s)).map (Outcome.map Prod.snd)

theorem rtl_perm (n : Nat) : (rtl n).Perm (List.range n) := List.reverse_perm _

theorem rtl_dec (n : Nat) : (rtl n).Pairwise (· > ·) := by
  rw [rtl, List.pairwise_reverse]
  exact List.pairwise_lt_range

/-- The hypotheses are met: both orders with four temporaries, and from last to first also with a single one. -/
example : OrderFine rtl prog [0] ∧ OrderFine ltr prog [9, 9, 9, 9] :=
  ⟨⟨rtl_perm, .inl rtl_dec⟩, ⟨fun _ => List.Perm.refl _, .inr (by decide)⟩⟩

example : Unmixed prog := by
  intro c hc
  simp only [prog, List.mem_cons, List.not_mem_nil, or_false] at hc
  rcases hc with rfl | rfl | rfl | rfl <;> simp [Src.HasExpr]

example : ∀ c ∈ prog, c.Fits 2 := by
  intro c hc
  simp only [prog, List.mem_cons, List.not_mem_nil, or_false] at hc
  rcases hc with rfl | rfl | rfl | rfl <;> simp [Call.Fits, Src.Fits, Prim.nparams, assign, minus]

example : Forward prog := by
  intro pc c hc
  match pc with
  | 0 => cases hc; exact ⟨nofun, nofun⟩
  | 1 => cases hc; exact ⟨nofun, fun _ => ⟨_, _, rfl, by decide⟩⟩
  | 2 => cases hc; exact ⟨nofun, nofun⟩
  | 3 => cases hc; exact ⟨nofun, nofun⟩
  | pc + 4 => cases hc

example : ((Fn.init 2 1).load prog).isSome = true := by decide +kernel

/-- `f0 = 7; f2 = (7 + 7) - (5 + 3) = 6; f0 = 6`. -/
example : go rtl [0] prog [7, 3] [0, 5, 0] = some (.done [6, 5, 6]) := by decide +kernel

example : go ltr [9, 9, 9, 9] prog [7, 3] [0, 5, 0] = some (.done [6, 5, 6]) := by decide +kernel

/-- The jump is taken. -/
example : go rtl [0] prog [7, 3] [0, -3, 0] = some (.done [0, -3, 0]) := by decide +kernel

/-- Five expressions, the last two in one call: their temporaries are 4 and 5. -/
def five : List (Call (List Int) Nat (Nat × Nat)) :=
  [⟨assign, [.atom (.named 0), .atom (.expr (1, 0))]⟩,
   ⟨assign, [.atom (.named 0), .atom (.expr (1, 1))]⟩,
   ⟨minus, [.atom (.named 2), .atom (.expr (0, 0)), .atom (.expr (1, 1))]⟩]

/-- **The full statement does not hold.** With the four temporaries there are at the start, and arguments that are
evaluated from first to last, the third expression is the reference to temporary 3 that is invalid once temporary 4 is made
(`/repo/include/bm/bm_sim/actions.h:307-330`). -/
theorem C65_growth : ¬ ∀ (order : Nat → List Nat) (calls : List (Call (List Int) Nat (Nat × Nat)))
    (f : Fn (List Int) Nat (Nat × Nat)) (adata s : List Int), (∀ n, (order n).Perm (List.range n)) → Unmixed calls →
    (Fn.init 2 1).load calls = some f →
    (Fn.run env f adata order 10 0 ([0, 0, 0, 0], s)).map (Outcome.map Prod.snd) = runCalls env adata calls 10 0 s := by
  intro h
  have hm : Unmixed five := by
    intro c hc
    simp only [five, List.mem_cons, List.not_mem_nil, or_false] at hc
    rcases hc with rfl | rfl | rfl <;> simp [Src.HasExpr]
  obtain ⟨f, hf⟩ : ∃ f, (Fn.init 2 1).load five = some f := Option.isSome_iff_exists.1 (by decide +kernel)
  have h1 := h ltr five f [7, 3] [0, 5, 0] (fun _ => List.Perm.refl _) hm hf
  have h2 : go ltr [0, 0, 0, 0] five [7, 3] [0, 5, 0] = none := by decide +kernel
  have h3 : runCalls env [7, 3] five 10 0 [0, 5, 0] = some (.done [8, 5, 7]) := by decide +kernel
  simp only [go, List.length_cons, List.length_nil, Nat.zero_add, Nat.reduceAdd, hf, Option.bind_eq_bind, Option.bind_some] at h2
  rw [h1, h3] at h2
  cases h2

/-- An expression, and a list with an expression: both have temporary 1. -/
def shared : List (Call (List Int) Nat (Nat × Nat)) :=
  [⟨minusSum, [.atom (.named 2), .atom (.expr (0, 0)), .vec [.expr (1, 1)]]⟩]

/-- **Nor with calls that mix an expression and a list with an expression**: the element of the list overwrites the
value of the first one when evaluated later, in either order of evaluation for a suitable order of the arguments
(`/repo/include/bm/bm_sim/actions.h:531-546`, `/repo/src/bm_sim/actions.cpp:195-213`). -/
theorem C65_shared : ¬ ∀ (calls : List (Call (List Int) Nat (Nat × Nat))) (f : Fn (List Int) Nat (Nat × Nat))
    (adata s : List Int), (Fn.init 2 1).load calls = some f →
    (Fn.run env f adata ltr 10 0 ([0, 0, 0, 0], s)).map (Outcome.map Prod.snd) = runCalls env adata calls 10 0 s := by
  intro h
  obtain ⟨f, hf⟩ : ∃ f, (Fn.init 2 1).load shared = some f := Option.isSome_iff_exists.1 (by decide +kernel)
  have h1 := h shared f [7, 3] [10, 5, 0] hf
  have h2 : go ltr [0, 0, 0, 0] shared [7, 3] [10, 5, 0] = some (.done [10, 5, 0]) := by decide +kernel
  have h3 : runCalls env [7, 3] shared 10 0 [10, 5, 0] = some (.done [10, 5, 9]) := by decide +kernel
  simp only [go, List.length_cons, List.length_nil, Nat.zero_add, Nat.reduceAdd, hf, Option.bind_eq_bind, Option.bind_some] at h2
  rw [h1, h3] at h2
  exact absurd h2 (by decide)

end Bm.Act.Ex
