import Verif.Spec.Shutdown

/-!
# Lemmas for C107
-/

namespace Bm.Shutdown
open Bm.Shutdown.Spec

/-! ## Sums and lists -/

theorem sumTo_set (f g : Nat → Nat) (w n : Nat) (hw : w < n) (hg : ∀ v, v ≠ w → g v = f v) :
    sumTo g n + f w = sumTo f n + g w := by
  induction n with
  | zero => omega
  | succ n ih =>
    simp only [sumTo]
    by_cases h : w = n
    · subst h
      have : ∀ m, m ≤ w → sumTo g m = sumTo f m := by
        intro m hm
        induction m with
        | zero => rfl
        | succ m ihm => simp only [sumTo]; rw [ihm (by omega), hg m (by omega)]
      rw [this w (Nat.le_refl _)]; omega
    · have := ih (by omega)
      rw [hg n (fun h' => h h'.symm)]; omega

theorem sumTo_le (f : Nat → Nat) (w n : Nat) (hw : w < n) : f w ≤ sumTo f n := by
  induction n with
  | zero => omega
  | succ n ih =>
    simp only [sumTo]
    by_cases h : w = n
    · subst h; omega
    · have := ih (by omega); omega

theorem front_append {l : List (Option Nat)} (h : none ∈ l) (r : List (Option Nat)) : front (l ++ r) = front l := by
  induction l with
  | nil => cases h
  | cons x l ih =>
    cases x with
    | none => rfl
    | some p =>
      simp only [List.cons_append, front]
      rw [ih (by simpa using h)]

theorem front_null {l : List (Option Nat)} (h : none ∉ l) : front (l ++ [none]) = front l := by
  induction l with
  | nil => rfl
  | cons x l ih =>
    cases x with
    | none => simp at h
    | some p =>
      simp only [List.cons_append, front]
      rw [ih (by simpa using h)]

theorem takeFirst_some {q : Nat × Nat} {l l' : List ((Nat × Nat) × Option Nat)} {y : Option Nat}
    (h : takeFirst q l = some (y, l')) : ∃ a b, l = a ++ (q, y) :: b ∧ l' = a ++ b := by
  induction l generalizing l' with
  | nil => cases h
  | cons x l ih =>
    simp only [takeFirst] at h
    split at h
    · rename_i hx
      simp only [Option.some.injEq, Prod.mk.injEq] at h
      obtain ⟨h1, h2⟩ := h
      exact ⟨[], l, by subst hx h1; rfl, h2.symm⟩
    · rw [Option.map_eq_some_iff] at h
      obtain ⟨⟨z, l2⟩, h1, h2⟩ := h
      simp only [Prod.mk.injEq] at h2
      obtain ⟨h2, h3⟩ := h2
      subst h2
      obtain ⟨a, b, e1, e2⟩ := ih h1
      exact ⟨x :: a, b, by rw [e1]; rfl, by rw [← h3, e2]; rfl⟩

theorem takeFirst_exists {q : Nat × Nat} {l : List ((Nat × Nat) × Option Nat)} (h : ∃ x ∈ l, x.1 = q) :
    ∃ y l', takeFirst q l = some (y, l') := by
  induction l with
  | nil => obtain ⟨x, h, -⟩ := h; cases h
  | cons x l ih =>
    simp only [takeFirst]
    split
    · exact ⟨_, _, rfl⟩
    · rename_i hx
      obtain ⟨y, h1, h2⟩ := h
      rcases List.mem_cons.1 h1 with rfl | h1
      · exact absurd h2 hx
      · obtain ⟨z, l', h3⟩ := ih ⟨y, h1, h2⟩
        exact ⟨z, x :: l', by rw [h3]; rfl⟩

/-! ## The parts of the load, and of what is left to do -/

/-- What a packet in a place counts. -/
def ingN : Ing → Nat
  | .busy _ | .back _ => 1
  | _ => 0

/-- What a packet in a place counts. -/
def egrN : Egr → Nat
  | .busy _ | .out _ | .back _ => 1
  | _ => 0

/-- What a packet in a place counts. -/
def eqN (x : (Nat × Nat) × Option Nat) : Nat := if x.2.isSome then 1 else 0

/-- What a packet in a place counts. -/
def outN (x : Option Nat) : Nat := if x.isSome then 1 else 0

/-- What a packet in a place counts. -/
def inN (c : Cfg) (s : St) : Nat := if s.ing = .done then 0 else front (inq c s)

theorem load_eq (c : Cfg) (s : St) : load c s = inN c s + ingN s.ing + (s.eq.map eqN).sum + sumTo (fun w => egrN (s.egr w)) c.n +
    (s.out.map outN).sum := by
  unfold load
  have h1 : (match s.ing with
    | .busy _ | .back _ => 1
    | _ => 0) = ingN s.ing := by cases s.ing <;> rfl
  have h2 : (fun w => match s.egr w with
    | .busy _ | .out _ | .back _ => 1
    | _ => 0) = fun w => egrN (s.egr w) := by funext w; cases s.egr w <;> rfl
  rw [← h1, ← h2]; rfl

/-- What there is to do. -/
def ingM : Ing → Nat
  | .busy _ | .back _ => 9
  | .idle => 2
  | .done => 0

/-- What there is to do. -/
def egrM : Egr → Nat
  | .busy _ => 4
  | .out _ | .back _ => 3
  | _ => 0

/-- What there is to do. -/
def eqM (x : (Nat × Nat) × Option Nat) : Nat := if x.2.isSome then 5 else 1

/-- What there is to do. -/
def mainM (n : Nat) : Main → Nat
  | .egress i => 2 * (n - i) + 4
  | .output => 3
  | .join => 1
  | _ => 0

/-- What there is to do. -/
def todo (c : Cfg) (s : St) : Nat :=
  9 * inN c s + ingM s.ing + (s.eq.map eqM).sum + sumTo (fun w => egrM (s.egr w)) c.n + s.out.length + mainM c.n s.main +
  (c.capLo - s.lo.length)

/-- The null pointer for egress thread `w` was pushed. -/
def Main.past (w : Nat) : Main → Prop
  | .egress i => w < i
  | .output | .join | .fin => True
  | _ => False

/-- The null pointer for the transmit thread was pushed. -/
def Main.pastOut : Main → Bool
  | .join | .fin => true
  | _ => false

/-- What holds once the null pointer for the ingress thread was pushed, if the program is modest. -/
structure Inv (c : Cfg) (N : Nat) (s : St) : Prop where
  main : (∃ i, s.main = .egress i ∧ i ≤ c.n) ∨ s.main = .output ∨ s.main = .join ∨ s.main = .fin
  inp : s.ing ≠ .done → none ∈ inq c s
  one : c.single = true → s.hi = []
  ing : ∀ p, s.ing ≠ .back p
  egr : ∀ w, w < c.n → ∀ p, s.egr w ≠ .back p
  nul : ∀ x ∈ s.eq, x.2 = none → x.1.1 < c.n ∧ x.1.2 = 0 ∧ s.main.past x.1.1
  wrk : ∀ w, w < c.n → s.main.past w → s.egr w = .done ∨ ((w, 0), none) ∈ s.eq
  dne : ∀ w, w < c.n → s.egr w = .done → s.main.past w
  tx : s.tx = true → s.main.pastOut = true
  out : s.out.count none = if s.main.pastOut = true ∧ s.tx = false then 1 else 0
  fin : s.main = .fin → s.ing = .done ∧ (∀ w, w < c.n → s.egr w = .done) ∧ s.tx = true
  load : load c s ≤ N

end Bm.Shutdown
