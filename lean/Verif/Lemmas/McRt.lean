import Verif.Model.McRt
import Verif.Props.Pre

/-!
# Lemmas about the multicast requests
-/

namespace Bm.McRt

open Bm.Pre Bm.Spec.Mc Bm.Spec.McRt

/-! ## Strings -/

theorem rev_get (c : Char) (cs : List Char) (p : Nat) :
    (c :: cs).reverse[p]? = if p = cs.length then some c else cs.reverse[p]? := by
  rw [List.reverse_cons, List.getElem?_append]
  simp only [List.length_reverse]
  by_cases h : p < cs.length
  · simp [h, Nat.ne_of_lt h]
  · by_cases h2 : p = cs.length
    · simp [h2]
    · simp only [h, if_false, h2]
      rw [List.getElem?_eq_none (by simp; omega), List.getElem?_eq_none (by simp; omega)]

theorem copyFrom_some (cs : List Char) (v : PortSet) (hb : ∀ c ∈ cs, c = '0' ∨ c = '1')
    (hl : cs.length ≤ 512) :
    ∃ w, copyFrom cs v = some w ∧
      ∀ p, w.getLsbD p = (v.getLsbD p || decide (cs.reverse[p]? = some '1')) := by
  induction cs generalizing v with
  | nil => exact ⟨v, rfl, by simp⟩
  | cons c cs ih =>
    simp only [List.length_cons] at hl
    have hb' : ∀ c ∈ cs, c = '0' ∨ c = '1' := fun x hx => hb x (by simp [hx])
    have hno : cs.reverse[cs.length]? = none := List.getElem?_eq_none (by simp)
    rcases hb c (by simp) with rfl | rfl
    · obtain ⟨w, h1, h2⟩ := ih v hb' (by omega)
      refine ⟨w, by simp [copyFrom, h1], fun p => ?_⟩
      rw [h2, rev_get]
      by_cases hp : p = cs.length
      · subst hp; simp [hno]
      · simp [hp]
    · obtain ⟨w, h1, h2⟩ := ih (v ||| BitVec.twoPow 512 cs.length) hb' (by omega)
      refine ⟨w, by simp [copyFrom, h1], fun p => ?_⟩
      rw [h2, rev_get, BitVec.getLsbD_or, BitVec.getLsbD_twoPow]
      by_cases hp : p = cs.length
      · subst hp
        have : cs.length < 512 := by omega
        simp [this]
      · have : ¬ (cs.length = p) := fun h => hp h.symm
        simp [hp, this]

theorem copyFrom_none (cs : List Char) (v : PortSet) (hb : ¬ ∀ c ∈ cs, c = '0' ∨ c = '1') :
    copyFrom cs v = none := by
  induction cs generalizing v with
  | nil => simp at hb
  | cons c cs ih =>
    rw [copyFrom]
    by_cases h0 : c = '0'
    · rw [if_pos h0]
      exact ih v fun h => hb fun x hx => by
        rcases List.mem_cons.1 hx with rfl | hx
        · exact .inl h0
        · exact h x hx
    · rw [if_neg h0]
      by_cases h1 : c = '1'
      · rw [if_pos h1]
        exact ih _ fun h => hb fun x hx => by
          rcases List.mem_cons.1 hx with rfl | hx
          · exact .inr h1
          · exact h x hx
      · rw [if_neg h1]

theorem portsOf_eq (s : List Char) (hl : s.length ≤ 512) : portsOf s = (setOf s).map den := by
  unfold setOf
  rw [List.take_of_length_le hl]
  by_cases hb : ∀ c ∈ s, c = '0' ∨ c = '1'
  · obtain ⟨w, h1, h2⟩ := copyFrom_some s 0 hb hl
    rw [h1, portsOf, if_pos ⟨hb, fun p hp _ => by have := Finset.mem_range.1 hp; omega⟩]
    simp only [Option.map_some, Option.some.injEq]
    ext p
    rw [Finset.mem_filter, mem_den, h2, Finset.mem_range]
    unfold Lists
    simp only [BitVec.ofNat_eq_ofNat, BitVec.getLsbD_zero, Bool.false_or, decide_eq_true_eq,
      and_iff_right_iff_imp]
    intro h
    have := (List.getElem?_eq_some_iff.1 h).1
    simpa using this
  · rw [copyFrom_none s 0 hb, portsOf, if_neg (fun h => hb h.1)]
    rfl

/-! ## Numbers -/

theorem toU32_ident (x : Int32) : toU32 x = ident x := rfl

theorem toNat_nonneg (x : Int32) (h : 0 ≤ x.toInt) :
    x.toBitVec.toNat < 2 ^ 31 ∧ x.toInt.toNat = x.toBitVec.toNat := by
  have e : x.toInt = x.toBitVec.toInt := rfl
  rw [e] at h ⊢
  rw [BitVec.toInt_eq_toNat_cond] at h ⊢
  have := x.toBitVec.isLt
  split at h
  · rename_i hc
    rw [if_pos hc]
    omega
  · omega

theorem toNat_neg (x : Int32) (h : ¬ 0 ≤ x.toInt) : 2 ^ 31 ≤ x.toBitVec.toNat := by
  have e : x.toInt = x.toBitVec.toInt := rfl
  rw [e] at h
  rw [BitVec.toInt_eq_toNat_cond] at h
  split at h
  · omega
  · omega

theorem toU64_nonneg (x : Int32) (h : 0 ≤ x.toInt) : toU64 x = ident x := by
  have h2 := (toNat_nonneg x h).1
  unfold toU64 ident
  rw [BitVec.toNat_signExtend]
  have : x.toBitVec.msb = false := by
    rw [BitVec.msb_eq_false_iff_two_mul_lt]; omega
  rw [this]
  simp
  omega

theorem toU64_neg (x : Int32) (h : ¬ 0 ≤ x.toInt) : 2 ^ 31 ≤ toU64 x := by
  have h2 := toNat_neg x h
  unfold toU64
  rw [BitVec.toNat_signExtend]
  have : x.toBitVec.msb = true := by
    rw [BitVec.msb_eq_true_iff_two_mul_ge]; omega
  rw [this, if_pos rfl]
  exact Nat.le_trans (by decide : 2 ^ 31 ≤ 2 ^ 64 - 2 ^ 32) (Nat.le_add_left _ _)

theorem ident_neg (x : Int32) (h : ¬ 0 ≤ x.toInt) : 2 ^ 31 ≤ ident x := toNat_neg x h

theorem ident_ofU64 (n : Nat) (h : n < 2 ^ 31) : ident (ofU64 n) = n ∧ 0 ≤ (ofU64 n).toInt := by
  have e : (ofU64 n).toBitVec = BitVec.ofNat 32 n := rfl
  constructor
  · unfold ident; rw [e]; simp; omega
  · have e2 : (ofU64 n).toInt = (BitVec.ofNat 32 n).toInt := rfl
    rw [e2, BitVec.toInt_eq_toNat_cond]
    simp only [BitVec.toNat_ofNat]
    rw [if_pos (by omega)]
    omega

theorem ofU64_toU32 (g : Int32) : ofU64 (toU32 g) = g := by
  apply Int32.toBitVec_inj.1
  show BitVec.ofNat 32 g.toBitVec.toNat = g.toBitVec
  simp

/-! ## Requests and calls of the engine -/

/-- The engine call that a request leads to. -/
def opOf : Req → Option (Op PortSet)
  | .mgrpCreate g => some (.groupCreate (toU32 g))
  | .mgrpDestroy g => some (.groupDestroy (toU64 g))
  | .nodeCreate rid ports none => (setOf ports).map fun p => .nodeCreate (toU32 rid) p none
  | .nodeCreate rid ports (some lags) =>
    (setOf ports).bind fun p => (setOf lags).map fun l => .nodeCreate (toU32 rid) p (some l)
  | .associate g n => some (.associate (toU64 g) (toU64 n))
  | .dissociate g n => some (.dissociate (toU64 g) (toU64 n))
  | .nodeDestroy n => some (.nodeDestroy (toU64 n))
  | .nodeUpdate n ports none => (setOf ports).map fun p => .nodeUpdate (toU64 n) p none
  | .nodeUpdate n ports (some lags) =>
    (setOf ports).bind fun p => (setOf lags).map fun l => .nodeUpdate (toU64 n) p (some l)
  | .setLag i ports => (setOf ports).map fun p => .setLag (toU16 i) p
  | .packet g => some (.replicateLag g.toNat)

/-- The reply for a result. -/
def wire : Req → Ret → Reply
  | .mgrpCreate g, .ok => .num g
  | _, .ok => .unit
  | _, .node n => .num (ofU64 n)
  | _, .err .full => .fail 1
  | _, .err .badGroup => .fail 3
  | _, .err .badNode => .fail 4
  | _, .err .conflict => .fail 5
  | _, .err .badLag => .fail 5
  | _, .copies l => .copies l

theorem createWith_code {p rid mk c h p'} (e : nodeCreateWith p rid mk = some (c, h, p')) :
    c = .success ∨ c = .tableFull := by
  unfold nodeCreateWith at e
  simp only [Option.bind_eq_bind, Option.pure_def] at e
  split at e
  · simp at e; exact .inr e.1.symm
  · split at e
    · simp at e; exact .inr e.1.symm
    · simp only [Option.bind_eq_some_iff, Option.some.injEq, Prod.mk.injEq] at e
      obtain ⟨_, _, _, _, e, _⟩ := e
      exact .inl e.symm

theorem assoc_code {p g n c p'} (e : nodeAssociate p g n = some (c, p')) : c ≠ .invalidMgid := by
  rintro rfl
  unfold nodeAssociate at e
  simp only [Option.bind_eq_bind, Option.pure_def, Option.bind_eq_some_iff] at e
  obtain ⟨b, _, e⟩ := e
  split at e
  · simp at e
  · split at e
    · simp at e
    · simp only [Option.bind_eq_some_iff] at e
      obtain ⟨_, _, e⟩ := e
      split at e <;> simp at e

theorem dissoc_code {p g n c p'} (e : nodeDissociate p g n = some (c, p')) :
    c ≠ .invalidMgid := by
  rintro rfl
  unfold nodeDissociate at e
  simp only [Option.bind_eq_bind, Option.pure_def, Option.bind_eq_some_iff] at e
  obtain ⟨b, _, e⟩ := e
  split at e
  · simp at e
  · split at e
    · simp at e
    · simp only [Option.bind_eq_some_iff] at e
      obtain ⟨_, _, e⟩ := e
      split at e <;> simp at e

theorem destroy_code {p n c p'} (e : nodeDestroy p n = some (c, p')) : c ≠ .invalidMgid := by
  rintro rfl
  unfold nodeDestroy at e
  simp only [Option.bind_eq_bind, Option.pure_def, Option.bind_eq_some_iff] at e
  obtain ⟨b, _, e⟩ := e
  split at e
  · simp at e
  · simp only [Option.bind_eq_some_iff] at e
    obtain ⟨_, _, _, _, _, _, e⟩ := e
    split at e
    · simp at e
    · simp only [Option.bind_eq_some_iff] at e
      obtain ⟨_, _, e⟩ := e
      split at e <;> simp at e

theorem updateWith_code {p n f c p'} (e : nodeUpdateWith p n f = some (c, p')) :
    c ≠ .invalidMgid := by
  rintro rfl
  unfold nodeUpdateWith at e
  simp only [Option.bind_eq_bind, Option.pure_def, Option.bind_eq_some_iff] at e
  obtain ⟨b, _, e⟩ := e
  split at e
  · simp at e
  · simp only [Option.bind_eq_some_iff] at e
    obtain ⟨_, _, _, _, e⟩ := e
    simp at e

theorem reply_unit {req : Req} (hreq : ∀ g, req ≠ .mgrpCreate g) {c : Code} (h : c ≠ .invalidMgid) :
    reply c .unit = wire req c.ret := by
  cases c
  case invalidMgid => exact absurd rfl h
  case success =>
    cases req <;> first | rfl | exact absurd rfl (hreq _)
  all_goals cases req <;> rfl

theorem serve_eq (p : State) (req : Req) :
    serve p req = ((opOf req).bind (exec p)).map fun x => (wire req x.1, x.2) := by
  cases req with
  | mgrpCreate g =>
    simp only [serve, opOf, exec, Option.bind_some, Option.map_some, ofU64_toU32, mgrpCreate]
    split <;> rfl
  | mgrpDestroy g => rfl
  | nodeCreate rid ports lags =>
    cases lags with
    | none =>
      simp only [serve, opOf]
      cases setOf ports with
      | none => rfl
      | some pm =>
        simp only [Option.bind_eq_bind, Option.bind_some, Option.map_some, exec, Option.pure_def]
        cases e : nodeCreate p (toU32 rid) pm with
        | none => rfl
        | some r =>
          obtain ⟨c, h, p'⟩ := r
          rcases createWith_code e with rfl | rfl <;> rfl
    | some lags =>
      simp only [serve, opOf]
      cases setOf ports with
      | none => rfl
      | some pm =>
        cases setOf lags with
        | none => rfl
        | some lm =>
          simp only [Option.bind_eq_bind, Option.bind_some, Option.map_some, exec, Option.pure_def]
          cases e : nodeCreateLag p (toU32 rid) pm lm with
          | none => rfl
          | some r =>
            obtain ⟨c, h, p'⟩ := r
            rcases createWith_code e with rfl | rfl <;> rfl
  | associate g n =>
    simp only [serve, opOf, Option.bind_some, exec, Option.bind_eq_bind, Option.pure_def]
    cases e : nodeAssociate p (toU64 g) (toU64 n) with
    | none => rfl
    | some r =>
      obtain ⟨c, p'⟩ := r
      simp only [Option.bind_some, Option.map_some]
      rw [reply_unit (req := .associate g n) (by simp) (assoc_code e)]
  | dissociate g n =>
    simp only [serve, opOf, Option.bind_some, exec, Option.bind_eq_bind, Option.pure_def]
    cases e : nodeDissociate p (toU64 g) (toU64 n) with
    | none => rfl
    | some r =>
      obtain ⟨c, p'⟩ := r
      simp only [Option.bind_some, Option.map_some]
      rw [reply_unit (req := .dissociate g n) (by simp) (dissoc_code e)]
  | nodeDestroy n =>
    simp only [serve, opOf, Option.bind_some, exec, Option.bind_eq_bind, Option.pure_def]
    cases e : nodeDestroy p (toU64 n) with
    | none => rfl
    | some r =>
      obtain ⟨c, p'⟩ := r
      simp only [Option.bind_some, Option.map_some]
      rw [reply_unit (req := .nodeDestroy n) (by simp) (destroy_code e)]
  | nodeUpdate n ports lags =>
    cases lags with
    | none =>
      simp only [serve, opOf]
      cases setOf ports with
      | none => rfl
      | some pm =>
        simp only [Option.bind_eq_bind, Option.bind_some, Option.map_some, exec, Option.pure_def]
        cases e : nodeUpdate p (toU64 n) pm with
        | none => rfl
        | some r =>
          obtain ⟨c, p'⟩ := r
          simp only [Option.bind_some, Option.map_some]
          rw [reply_unit (req := .nodeUpdate n ports none) (by simp) (updateWith_code e)]
    | some lags =>
      simp only [serve, opOf]
      cases setOf ports with
      | none => rfl
      | some pm =>
        cases setOf lags with
        | none => rfl
        | some lm =>
          simp only [Option.bind_eq_bind, Option.bind_some, Option.map_some, exec, Option.pure_def]
          cases e : nodeUpdateLag p (toU64 n) pm lm with
          | none => rfl
          | some r =>
            obtain ⟨c, p'⟩ := r
            simp only [Option.bind_some, Option.map_some]
            rw [reply_unit (req := .nodeUpdate n ports (some lags)) (by simp) (updateWith_code e)]
  | setLag i ports =>
    simp only [serve, opOf]
    cases setOf ports with
    | none => rfl
    | some pm =>
      simp only [Option.bind_eq_bind, Option.bind_some, Option.map_some, exec, Option.pure_def,
        setLagMembership]
      split <;> rfl
  | packet g =>
    simp only [serve, opOf, Option.bind_some, exec, Option.bind_eq_bind, Option.pure_def]
    cases replicateLag p g.toNat <;> rfl

end Bm.McRt
