import Verif.Lemmas.ThriftProfSim

/-! # Lemmas about the requests about action profiles -/

namespace Bm.Thrift
open Bm.Spec Bm.Thrift.Spec

variable {n : Nat} {R : Type}

/-- Good actions. -/
def GoodAct (d : PDecl n) (x : Act) : Prop := x.1 ∈ d.acts.map Prod.snd ∧ ∀ v ∈ x.2, 0 ≤ v

/-- What holds always. -/
structure Inv (d : PDecl n) (s : CState n) : Prop where
  mem : ∀ m x, s.mem m = some x → GoodAct d x
  tab : ∀ i h k r, s.tab i h = some (k, r) → RefAllowed (d.tab i) r
  dflt : ∀ i r, s.dflt i = some r → RefAllowed (d.tab i) r

/-- Calls with good arguments. -/
def OkOp (d : PDecl n) : COp n → Prop
  | .addMember (some a) => GoodAct d a
  | .modMember _ (some a) => GoodAct d a
  | .tAdd i _ r _ => RefAllowed (d.tab i) r
  | .tMod i _ r => RefAllowed (d.tab i) r
  | .setDflt i r => RefAllowed (d.tab i) r
  | _ => True

section
variable {d : PDecl n} {kb : Fin n → KeyB} {s s' : CState n}

theorem Inv.setMem (h : Inv d s) {m x} (hx : ∀ a, x = some a → GoodAct d a) :
    Inv d { s with mem := fun y => if y = m then x else s.mem y } := by
  refine ⟨fun m' y hy => ?_, h.tab, h.dflt⟩
  dsimp only at hy
  split at hy
  · exact hx _ hy
  · exact h.mem _ _ hy

theorem Inv.setGrp (h : Inv d s) (f) : Inv d { s with grp := f } := ⟨h.mem, h.tab, h.dflt⟩

theorem Inv.setTab (h : Inv d s) (i) {T : Nat → Option (CKey × Ref)}
    (hT : ∀ x k r, T x = some (k, r) → RefAllowed (d.tab i) r) : Inv d { s with tab := upd s.tab i T } := by
  refine ⟨h.mem, fun j x k r hx => ?_, h.dflt⟩
  by_cases hj : j = i
  · subst hj; simp only [upd_self] at hx; exact hT _ _ _ hx
  · simp only [upd_ne _ _ _ hj] at hx; exact h.tab _ _ _ _ hx

theorem Inv.setDflt (h : Inv d s) (i) {v : Option Ref} (hv : ∀ r, v = some r → RefAllowed (d.tab i) r) :
    Inv d { s with dflt := upd s.dflt i v } := by
  refine ⟨h.mem, h.tab, fun j r hx => ?_⟩
  by_cases hj : j = i
  · subst hj; simp only [upd_self] at hx; exact hv _ hx
  · simp only [upd_ne _ _ _ hj] at hx; exact h.dflt _ _ hx

theorem Inv.step (h : Inv d s) {kop : KOp d kb} {op : COp n} (hr : OpRel d kb kop op) (ho : OkOp d op) {L L' out}
    (hs : PStepL (pcfg d) s L op s' L' out) : Inv d s' := by
  cases hr with
  | addMember a =>
    obtain ⟨hs, -⟩ := hs
    cases a with
    | none => obtain ⟨-, rfl⟩ := hs; exact h
    | some a =>
      obtain ⟨m, -, -, rfl⟩ := hs
      exact h.setMem (fun b hb => by cases hb; exact ho)
  | delMember m =>
    obtain ⟨-, ⟨-, -, -, rfl⟩ | ⟨-, ⟨-, -, rfl⟩ | ⟨-, -, -, rfl⟩ | ⟨-, -, -, rfl⟩⟩⟩ := hs
    · exact h
    · exact h
    · exact h
    · exact h.setMem (fun b hb => by cases hb)
  | modMember m a =>
    obtain ⟨hs, -⟩ := hs
    cases a with
    | none => obtain ⟨-, rfl⟩ := hs; exact h
    | some a =>
      obtain ⟨-, -, rfl⟩ | ⟨-, -, rfl⟩ := hs
      · exact h
      · exact h.setMem (fun b hb => by cases hb; exact ho)
  | newGroup => obtain ⟨⟨g, -, -, rfl⟩, -⟩ := hs; exact h.setGrp _
  | delGroup m =>
    obtain ⟨-, ⟨-, -, -, rfl⟩ | ⟨-, ⟨-, -, rfl⟩ | ⟨-, -, -, rfl⟩ | ⟨-, -, -, rfl⟩⟩⟩ := hs
    · exact h
    · exact h
    · exact h
    · exact h.setGrp _
  | join m g =>
    obtain ⟨⟨-, -, rfl⟩ | ⟨-, -, -, rfl⟩ | ⟨G, -, -, ⟨-, -, rfl⟩ | ⟨-, -, rfl⟩⟩, -⟩ := hs
    · exact h
    · exact h
    · exact h
    · exact h.setGrp _
  | leave m g =>
    obtain ⟨⟨-, -, rfl⟩ | ⟨-, -, -, rfl⟩ | ⟨G, -, -, ⟨-, -, rfl⟩ | ⟨-, -, rfl⟩⟩, -⟩ := hs
    · exact h
    · exact h
    · exact h
    · exact h.setGrp _
  | tAddBad i r now =>
    obtain ⟨⟨e, -, -, rfl⟩ | ⟨-, T', o, ht, -, rfl⟩, -⟩ := hs
    · exact h
    · have : T' = s.tab i := by
        simp only [TStep] at ht
        split at ht <;> simp_all
      subst this
      exact h.setTab i (h.tab i)
  | tAdd i key k r now h1 h2 h3 =>
    obtain ⟨⟨e, -, -, rfl⟩ | ⟨-, T', o, ht, -, rfl⟩, -⟩ := hs
    · exact h
    · refine h.setTab i (fun x k' r' hx => ?_)
      simp only [TStep] at ht
      split at ht
      · rw [ht.2] at hx; exact h.tab _ _ _ _ hx
      · rename_i he; cases he
      · rename_i k1 _ he
        cases he
        obtain ⟨-, -, rfl⟩ | ⟨-, -, -, rfl⟩ | ⟨-, -, y, -, -, -, -, rfl⟩ := ht
        · exact h.tab _ _ _ _ hx
        · exact h.tab _ _ _ _ hx
        · dsimp only at hx
          split at hx
          · cases hx; exact ho
          · exact h.tab _ _ _ _ hx
  | tDel i x =>
    obtain ⟨⟨T', o, ⟨-, -, rfl⟩ | ⟨-, -, rfl⟩, -, rfl⟩, -⟩ := hs
    · refine h.setTab i (fun y k' r' hx => ?_)
      dsimp only at hx
      split at hx
      · cases hx
      · exact h.tab _ _ _ _ hx
    · exact h.setTab i (h.tab i)
  | tMod i x r =>
    obtain ⟨⟨e, -, -, -, rfl⟩ | ⟨-, T', o, ⟨k, v', -, -, rfl⟩ | ⟨-, -, rfl⟩, -, rfl⟩, -⟩ := hs
    · exact h
    · refine h.setTab i (fun y k' r' hx => ?_)
      dsimp only at hx
      split at hx
      · cases hx; exact ho
      · exact h.tab _ _ _ _ hx
    · exact h.setTab i (h.tab i)
  | setDflt i r =>
    obtain ⟨⟨-, -, rfl⟩ | ⟨-, -, -, rfl⟩ | ⟨-, -, -, rfl⟩, -⟩ := hs
    · exact h
    · exact h
    · exact h.setDflt i (fun r' hr => by cases hr; exact ho)
  | unsetDflt i =>
    obtain ⟨⟨-, rfl⟩, -⟩ := hs
    exact h.setDflt i (fun r' hr => by cases hr)
  | clear i b =>
    obtain ⟨⟨-, rfl⟩, -⟩ := hs
    have h1 := h.setTab i (T := fun _ => none) (fun _ _ _ hx => by cases hx)
    cases b with
    | false => exact h1
    | true => exact h1.setDflt i (fun r' hr => by cases hr)

end

/-! ## Calls -/

/-- The model state stands for a state of the specification. -/
def Rel (d : PDecl n) (kb : Fin n → KeyB) (st : (ctxOf d kb).Sys R) (s : CState n) (L : Ref → Nat) : Prop :=
  ∃ sc Sm Sg, PRepL st sc Sm Sg L ∧ st.cfg = kcfg d kb ∧ CSim d kb sc s ∧ Inv d s

theorem why_errExc (group : Bool) (e : PErr) :
    PExc.why (PCtx.errExc group e) = some (if e = .inUse then .inUse group else .prof e) := by
  cases e <;> cases group <;> rfl

theorem finish_tells {ι : Type} {K K' : ι → Type} {A : Type} (group : Bool) {stale : PExc} {out : POut ι K A} (hw : Wr out)
    (hst : PExc.why stale = some (.table .stale) ∨ ∀ i, out ≠ .tab i (.err .stale)) :
    ∃ r, PCtx.finish group stale out = some r ∧ Tells group (recast out : POut ι K' A) r := by
  cases hw with
  | err e => exact ⟨_, rfl, _, rfl, why_errExc group e⟩
  | done => exact ⟨_, rfl, rfl⟩
  | id m => exact ⟨_, rfl, rfl⟩
  | terr i e =>
    refine ⟨_, rfl, _, rfl, ?_⟩
    cases e <;> try rfl
    rcases hst with h | h
    · exact h
    · exact absurd rfl (h i)
  | tdone i => exact ⟨_, rfl, rfl⟩
  | thandle i h => exact ⟨_, rfl, rfl⟩

/-- Not a refused change of an entry. -/
def Keeps (op : COp n) (r : PRes) : Prop :=
  match op, r with
  | .tMod _ _ _, .exc c => PExc.why c = some .tableName ∨ PExc.why c = some .tableType ∨
      ∃ e, PExc.why c = some (.table e)
  | _, _ => True

section
variable {d : PDecl n} {kb : Fin n → KeyB} {st : (ctxOf d kb).Sys R} {s : CState n} {L : Ref → Nat}

/-- A call that writes. -/
theorem call_ok (laws : ∀ i, KeyLaws (keysOf (d.tab i)) (kb i)) (h : Rel d kb st s L) (hn : PRepL.Room (Fin n) L)
    {op : KOp d kb} {op' : COp n} (ho : OpRel d kb op op') (hk : OkOp d op') (hv : op.Valid (kcfg d kb))
    (hp : st.SafePre op) (group : Bool) (stale : PExc)
    (hst : PExc.why stale = some (.table .stale) ∨
      ∀ s' L' out, PStepL (pcfg d) s L op' s' L' out → ∀ i, out ≠ .tab i (.err .stale)) :
    ∃ r st', (ctxOf d kb).call st group stale op = some (r, st') ∧ (Keeps op' r →
      ∃ s' L', Rel d kb st' s' L' ∧ CallStep d s L group op' s' L' r ∧
        ∀ x, L' x ≤ L x + leftBehind (kcfg d kb).size [op]) := by
  obtain ⟨sc, Sm, Sg, hrep, hcfg, hsim, hinv⟩ := h
  obtain ⟨out, st', e, hL⟩ := hrep.execL hn op (by rw [hcfg]; exact hv) hp
  by_cases hso : SafeOut op out
  · obtain ⟨sc', Sm', Sg', L', hrep', hstep, hcfg', hle⟩ := hL hso
    rw [hcfg] at hstep hcfg' hle
    obtain ⟨s', hsim', hstep', hw⟩ := lift laws hsim ho hstep
    obtain ⟨r, e1, ht⟩ := finish_tells (K' := fun _ => CKey) group hw (stale := stale) (by
      rcases hst with h1 | h1
      · exact .inl h1
      · refine .inr (fun i hi => ?_)
        have := h1 _ _ _ hstep' i
        rw [hi] at this
        exact this rfl)
    refine ⟨r, st', by simp [PCtx.call, e, e1], fun _ => ⟨s', L', ⟨sc', Sm', Sg', hrep', hcfg', hsim',
      hinv.step ho hk hstep'⟩, ⟨_, hstep', ht⟩, hle⟩⟩
  · cases ho with
    | tMod i x r =>
      cases out with
      | err e' =>
        refine ⟨.exc (PCtx.errExc group e'), st', by simp [PCtx.call, e, PCtx.finish], fun hk => ?_⟩
        exfalso
        simp only [Keeps, why_errExc] at hk
        split at hk <;> simp at hk
      | _ => exact absurd trivial hso
    | _ => exact absurd trivial hso

end

end Bm.Thrift
