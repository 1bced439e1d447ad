import Verif.Lemmas.ThriftProf

/-! # Each request about an action profile -/

namespace Bm.Thrift
open Bm.Spec Bm.Thrift.Spec

variable {n : Nat} {R : Type}

/-- A request is answered, and the answer is allowed. -/
def Answered (d : PDecl n) (kb : Fin n → KeyB) (L : Ref → Nat) (x : Option (PRes × (ctxOf d kb).Sys R))
    (ok : PRes → Prop) (bound : Nat) (step : CState n → (Ref → Nat) → PRes → Prop) : Prop :=
  ∃ r st', x = some (r, st') ∧ (ok r → ∃ s' L', Rel d kb st' s' L' ∧ step s' L' r ∧ ∀ x, L' x ≤ L x + bound)

section
variable {d : PDecl n} {kb : Fin n → KeyB} {st : (ctxOf d kb).Sys R} {s : CState n} {L : Ref → Nat}

theorem Answered.mono {x : Option (PRes × (ctxOf d kb).Sys R)} {ok ok' : PRes → Prop} {b b' : Nat} {P Q}
    (h : Answered d kb L x ok b P) (ho : ∀ r, ok' r → ok r) (hb : b ≤ b') (hq : ∀ s' L' r, P s' L' r → Q s' L' r) :
    Answered d kb L x ok' b' Q := by
  obtain ⟨r, st', e, h⟩ := h
  refine ⟨r, st', e, fun hr => ?_⟩
  obtain ⟨s', L', h1, h2, h3⟩ := h (ho r hr)
  exact ⟨s', L', h1, hq _ _ _ h2, fun x => le_trans (h3 x) (Nat.add_le_add_left hb _)⟩

/-- A request that only reads. -/
theorem Rel.read (h : Rel d kb st s L) {ok b} {P : PRes → Prop} {x} {r : PRes} (e : x = some (r, st)) (hr : P r) :
    Answered d kb L x ok b fun s' L' r => (s' = s ∧ L' = L) ∧ P r :=
  ⟨r, st, e, fun _ => ⟨s, L, h, ⟨⟨rfl, rfl⟩, hr⟩, fun _ => Nat.le_add_right _ _⟩⟩

/-! ## The profile -/

theorem showMember_ok {x : Act} (h : GoodAct d x) :
    ∃ y, (ctxOf d kb).showMember x = some y ∧ ShowsMember d x y.1 y.2 := by
  obtain ⟨bs, e, hb⟩ := mapM_getString x.2 h.2
  obtain ⟨z, hz, hzx⟩ := List.mem_map.1 h.1
  have : ((d.acts.find? fun y => y.2 = x.1)).isSome = true := by
    rw [List.find?_isSome]; exact ⟨z, hz, by simp [hzx]⟩
  obtain ⟨y, hy⟩ := Option.isSome_iff_exists.1 this
  have h1 := List.find?_some hy
  have h2 := List.mem_of_find?_eq_some hy
  refine ⟨(y.1, bs), ?_, ?_, hb⟩
  · simp [PCtx.showMember, ctxOf, hy, e]
  · have : y.2 = x.1 := by simpa using h1
    rw [← this]; exact h2

theorem withAct_ok (h : Rel d kb st s L) (a : String) (k : ActFn → Option (PRes × (ctxOf d kb).Sys R))
    {b : Nat} {Q : ActFn → CState n → (Ref → Nat) → PRes → Prop}
    (hk : ∀ f, (a, f) ∈ d.acts → Answered d kb L (k f) (fun _ => True) b (Q f)) :
    Answered d kb L ((ctxOf d kb).withAct st a k) (fun _ => True) b fun s' L' r =>
      PWithAct d a (s' = s ∧ L' = L) r fun f => Q f s' L' r := by
  unfold PCtx.withAct
  show Answered d kb L (match (d.acts.find? fun x => x.1 = a).map Prod.snd with
    | none => some (.exc .invalidActionName, st)
    | some f => k f) _ _ _
  cases e : d.acts.find? fun x => x.1 = a with
  | none =>
    refine ⟨_, st, rfl, fun _ => ⟨s, L, h, .inr ⟨?_, ⟨rfl, rfl⟩, _, rfl, rfl⟩, fun _ => Nat.le_add_right _ _⟩⟩
    intro f hf
    rw [List.find?_eq_none] at e
    exact e _ hf (by simp)
  | some x =>
    have h1 := List.find?_some e
    have h2 := List.mem_of_find?_eq_some e
    have h3 : x.1 = a := by simpa using h1
    have h4 : (a, x.2) ∈ d.acts := by rw [← h3]; exact h2
    exact (hk x.2 h4).mono (fun _ x => x) (Nat.le_refl _) (fun _ _ _ hq => .inl ⟨x.2, h4, hq⟩)

theorem actData_eq (f : ActFn) (data : List Bytes) : PCtx.actData f data = actOf f data := by
  unfold PCtx.actData actOf
  rw [actionData_nums, nums_length]

theorem actOf_good {a : String} {f : ActFn} (hf : (a, f) ∈ d.acts) {data : List Bytes} {x} (h : actOf f data = some x) :
    GoodAct d x := by
  unfold actOf at h
  split at h <;> cases h
  exact ⟨List.mem_map.2 ⟨_, hf, rfl⟩, nums_nonneg data⟩

/-- Room for one more member or group. -/
def PreReq (c : PCtx n) (st : c.Sys R) : PReq → Prop
  | .prof nm (.addMember _ _) => nm = c.name → st.prof.numMembers < 2 ^ 24
  | .prof nm .newGroup => nm = c.name → st.prof.numGroups < 2 ^ 24
  | _ => True

theorem okOp_act {a f data} (hf : (a, f) ∈ d.acts) : OkOp d (.addMember (actOf f data)) := by
  cases e : actOf f data with
  | none => trivial
  | some x => exact actOf_good hf e

theorem okOp_mod {a f data} (m) (hf : (a, f) ∈ d.acts) : OkOp d (.modMember m (actOf f data)) := by
  cases e : actOf f data with
  | none => trivial
  | some x => exact actOf_good hf e

theorem keeps_trivial {op : COp n} (h : ∀ i x r, op ≠ .tMod i x r) (r : PRes) : Keeps op r := by
  cases op <;> try trivial
  exact absurd rfl (h _ _ _)

variable (laws : ∀ i, KeyLaws (keysOf (d.tab i)) (kb i)) (hn : PRepL.Room (Fin n) L)
include laws hn

/-- Calls other than changes of entries. -/
theorem call_answered (h : Rel d kb st s L) {op : KOp d kb} {op' : COp n} (ho : OpRel d kb op op') (hk : OkOp d op')
    (hv : op.Valid (kcfg d kb)) (hp : st.SafePre op) (group : Bool) {stale : PExc}
    (hst : PExc.why stale = some (.table .stale) ∨
      ∀ s' L' out, PStepL (pcfg d) s L op' s' L' out → ∀ i, out ≠ .tab i (.err .stale)) :
    Answered d kb L ((ctxOf d kb).call st group stale op) (Keeps op') (leftBehind (kcfg d kb).size [op])
      fun s' L' r => CallStep d s L group op' s' L' r := by
  obtain ⟨r, st', e, h'⟩ := call_ok laws h hn ho hk hv hp group stale hst
  exact ⟨r, st', e, h'⟩

theorem prof_ok (h : Rel d kb st s L) (c : PCall) (hp : PreReq (ctxOf d kb) st (.prof d.name c)) :
    Answered d kb L ((ctxOf d kb).profExec st c) (fun _ => True) 0 fun s' L' r => ProfStep d s L c s' L' r := by
  obtain ⟨sc, Sm, Sg, hrep, hcfg, hsim, hinv⟩ := id h
  cases c with
  | addMember a data =>
    refine withAct_ok h a _ (fun f hf => ?_)
    rw [actData_eq]
    exact (call_answered laws hn h (.addMember (actOf f data)) (okOp_act hf) trivial (hp rfl) false (.inl rfl)).mono
      (fun r _ => trivial) (Nat.le_refl _) (fun _ _ _ x => x)
  | delMember m =>
    exact (call_answered laws hn h (.delMember m) trivial trivial trivial false (.inl rfl)).mono
      (fun r _ => trivial) (Nat.le_refl _) (fun _ _ _ x => x)
  | modMember m a data =>
    refine withAct_ok h a _ (fun f hf => ?_)
    rw [actData_eq]
    exact (call_answered laws hn h (.modMember m (actOf f data)) (okOp_mod m hf) trivial trivial false (.inl rfl)).mono
      (fun r _ => trivial) (Nat.le_refl _) (fun _ _ _ x => x)
  | newGroup =>
    exact (call_answered laws hn h .newGroup trivial trivial (hp rfl) true (.inl rfl)).mono
      (fun r _ => trivial) (Nat.le_refl _) (fun _ _ _ x => x)
  | delGroup g =>
    exact (call_answered laws hn h (.delGroup g) trivial trivial trivial true (.inl rfl)).mono
      (fun r _ => trivial) (Nat.le_refl _) (fun _ _ _ x => x)
  | join m g =>
    exact (call_answered laws hn h (.join m g) trivial trivial trivial true (.inl rfl)).mono
      (fun r _ => trivial) (Nat.le_refl _) (fun _ _ _ x => x)
  | leave m g =>
    exact (call_answered laws hn h (.leave m g) trivial trivial trivial true (.inl rfl)).mono
      (fun r _ => trivial) (Nat.le_refl _) (fun _ _ _ x => x)
  | getMember m =>
    obtain ⟨out, st', e, s', -, -, -, ⟨-, hs⟩, -⟩ := hrep.getMember m
    obtain ⟨r, e1, e2⟩ := Option.map_eq_some_iff.1 e
    rw [hsim.mem] at hs
    rcases hs with ⟨hm, ho⟩ | ⟨x, hm, ho⟩
    · cases r with
      | some y => simp [ho] at e2
      | none =>
        refine h.read (r := .exc .invalidMbrHandle) ?_ ?_
        · simp only [PCtx.profExec]; rw [e1]; rfl
        · simp only [hm]; exact ⟨_, rfl, rfl⟩
    · cases r with
      | none => simp [ho] at e2
      | some y =>
        simp only [ho, Prod.mk.injEq, POut.member.injEq] at e2
        obtain ⟨rfl, -⟩ := e2
        obtain ⟨z, e3, hz⟩ := showMember_ok (kb := kb) (hinv.mem m y hm)
        refine h.read (r := .member m z.1 z.2) ?_ ?_
        · simp only [PCtx.profExec]; rw [e1]; simp [e3]
        · simp only [hm]; exact ⟨_, _, rfl, hz⟩
  | getMembers =>
    obtain ⟨out, st', e, s', -, -, -, ⟨-, l, ho, hsort, hl⟩, -⟩ := hrep.getMembers
    obtain ⟨l', e1, e2⟩ := Option.map_eq_some_iff.1 e
    simp only [ho, Prod.mk.injEq, POut.members.injEq] at e2
    obtain ⟨rfl, -⟩ := e2
    rw [hsim.mem] at hl
    have key : ∀ l0 : List (Nat × Act), (∀ x ∈ l0, s.mem x.1 = some x.2) →
        ∃ l1, (l0.mapM fun x => ((ctxOf d kb).showMember x.2).map fun y => (x.1, y)) = some l1 ∧
          l1.map Prod.fst = l0.map Prod.fst ∧ ∀ x ∈ l1, ∃ y, s.mem x.1 = some y ∧ ShowsMember d y x.2.1 x.2.2 := by
      intro l0
      induction l0 with
      | nil => intro _; exact ⟨[], rfl, rfl, by simp⟩
      | cons x l0 ih =>
        intro hx
        obtain ⟨l1, e3, h3, h4⟩ := ih (fun y hy => hx y (by simp [hy]))
        have hx' := hx x (by simp)
        obtain ⟨z, e4, hz⟩ := showMember_ok (kb := kb) (hinv.mem _ _ hx')
        refine ⟨(x.1, z) :: l1, by simp [List.mapM_cons, e3, e4], by simp [h3], ?_⟩
        intro y hy
        rcases List.mem_cons.1 hy with rfl | hy
        · exact ⟨_, hx', hz⟩
        · exact h4 y hy
    obtain ⟨l1, e3, h3, h4⟩ := key l' (fun x hx => (hl x.1 x.2).1 hx)
    refine h.read (r := .members l1) ?_ ⟨l1, rfl, by rw [h3]; exact hsort, h4, fun m hm => ?_⟩
    · simp only [PCtx.profExec, Option.bind_eq_bind]
      rw [e1]
      simp only [Option.bind_some]
      rw [e3]; rfl
    · obtain ⟨x, hx⟩ := Option.isSome_iff_exists.1 hm
      rw [h3]
      exact List.mem_map.2 ⟨_, (hl m x).2 hx, rfl⟩
  | getGroup g =>
    obtain ⟨out, st', e, s', -, -, -, ⟨-, hs⟩, -⟩ := hrep.getGroup g
    obtain ⟨r, e1, e2⟩ := Option.map_eq_some_iff.1 e
    rw [hsim.grp] at hs
    rcases hs with ⟨hm, ho⟩ | ⟨G, l, hm, ho, hl⟩
    · cases r with
      | some y => simp [ho] at e2
      | none =>
        refine h.read (r := .exc .invalidGrpHandle) ?_ ?_
        · simp only [PCtx.profExec]; rw [e1]; rfl
        · simp only [hm]; exact ⟨_, rfl, rfl⟩
    · cases r with
      | none => simp [ho] at e2
      | some y =>
        simp only [ho, Prod.mk.injEq, POut.group.injEq] at e2
        obtain ⟨rfl, -⟩ := e2
        refine h.read (r := .group g y) ?_ ?_
        · simp only [PCtx.profExec]; rw [e1]; rfl
        · simp only [hm]; exact ⟨_, rfl, hl⟩
  | getGroups =>
    obtain ⟨out, st', e, s', -, -, -, ⟨-, l, ho, hsort, hl, hl2⟩, -⟩ := hrep.getGroups
    obtain ⟨l', e1, e2⟩ := Option.map_eq_some_iff.1 e
    simp only [ho, Prod.mk.injEq, POut.groups.injEq] at e2
    obtain ⟨rfl, -⟩ := e2
    rw [hsim.grp] at hl hl2
    refine h.read (r := .groups l') ?_ ⟨l', rfl, hsort, fun x hx => hl x.1 x.2 hx, fun g hg => ?_⟩
    · simp only [PCtx.profExec, Option.bind_eq_bind]
      rw [e1]; rfl
    · obtain ⟨G, hG⟩ := Option.isSome_iff_exists.1 hg
      exact hl2 g G hG

end

end Bm.Thrift
