import Verif.Lemmas.ThriftProfTab

/-! # Histories of requests about an action profile and its tables -/

namespace Bm.Thrift
open Bm.Spec Bm.Thrift.Spec

variable {n : Nat} {R : Type}

/-- Histories in which there are never more than `2^24` members and groups, and no change of an entry is refused because
of the member or group. -/
def Tame (c : PCtx n) : c.Sys R → List PReq → Prop
  | _, [] => True
  | st, q :: qs => PreReq c st q ∧
    match c.exec st q with
    | none => True
    | some (r, st') => Lossless q r ∧ Tame c st' qs

section
variable {d : PDecl n} {kb : Fin n → KeyB} {st : (ctxOf d kb).Sys R} {s : CState n} {L : Ref → Nat}

theorem find_some {nm : String} {i : Fin n} (h : (ctxOf d kb).find nm = some i) : (d.tab i).name = nm := by
  have := List.find?_some h
  exact of_decide_eq_true this

theorem find_none {nm : String} (h : (ctxOf d kb).find nm = none) (i : Fin n) : (d.tab i).name ≠ nm := by
  have := List.find?_eq_none.1 h i (List.mem_finRange i)
  intro hc
  exact this (decide_eq_true hc)

theorem leftTab_le (i : Fin n) (c : TCall) : leftTab d i c ≤ left1 d (.tab (d.tab i).name c) := by
  cases c <;> simp only [leftTab, left1, Nat.le_refl, Nat.zero_le]
  have h1 := List.single_le_sum (l := (List.finRange n).map fun j => if (d.tab j).name = (d.tab i).name then
    (d.tab j).size + 1 else 0) (by simp) ((d.tab i).size + 1) (by
      rw [List.mem_map]; exact ⟨i, List.mem_finRange i, by simp⟩)
  exact h1

theorem exec_ok' (w : Spec.PDecl.WF d) (laws : ∀ i, KeyLaws (keysOf (d.tab i)) (kb i)) (hn : PRepL.Room (Fin n) L)
    (h : Rel d kb st s L) (q : PReq) (hc : PConsidered d q) (hp : PreReq (ctxOf d kb) st q) :
    Answered d kb L ((ctxOf d kb).exec st q) (Lossless q) (left1 d q) fun s' L' r => ReqStep d s L q s' L' r := by
  cases q with
  | prof nm c =>
    by_cases hnm : nm = d.name
    · subst hnm
      have e : (ctxOf d kb).exec st (.prof d.name c) = (ctxOf d kb).profExec st c := by
        simp [PCtx.exec, ctxOf]
      rw [e]
      exact (prof_ok laws hn h c hp).mono (fun _ _ => trivial) (Nat.zero_le _) (fun _ _ _ x => .inl ⟨rfl, x⟩)
    · have hc' := hc.resolve_left hnm
      have e : (ctxOf d kb).exec st (.prof nm c) = some (PCtx.noProf c, st) := by
        have : ¬ nm = (ctxOf d kb).name := hnm
        simp [PCtx.exec, this]
      rw [e]
      have e2 : PCtx.noProf c = .exc .invalidProfileName := by
        cases c <;> first | rfl | exact absurd rfl hc'.1 | exact absurd rfl hc'.2
      exact ⟨_, st, rfl, fun _ => ⟨s, L, h, .inr ⟨hnm, ⟨rfl, rfl⟩, _, e2, rfl⟩, fun _ => Nat.le_add_right _ _⟩⟩
  | tab nm c =>
    cases hf : (ctxOf d kb).find nm with
    | some i =>
      have hi := find_some hf
      subst hi
      have e : (ctxOf d kb).exec st (.tab (d.tab i).name c) = (ctxOf d kb).tabExec st i c := by
        simp only [PCtx.exec, hf]
      rw [e]
      exact (tab_ok w laws hn h i c (hc.1 i rfl)).mono (fun _ x => x) (leftTab_le i c) (fun _ _ _ x => .inl ⟨i, rfl, x⟩)
    | none =>
      have hno := find_none hf
      have hcc := hc.2 hno
      by_cases hd : nm ∈ d.direct
      · have hw : TCall.writes c = true := hcc.resolve_right (fun x => x.1 hd)
        have e : (ctxOf d kb).exec st (.tab nm c) = some (.exc .wrongTableType, st) := by
          have hd' : nm ∈ (ctxOf d kb).direct := hd
          simp only [PCtx.exec, hf, if_pos hd']
          cases c <;> first | rfl | (simp [TCall.writes] at hw)
        rw [e]
        exact ⟨_, st, rfl, fun _ => ⟨s, L, h, .inr ⟨hno, ⟨rfl, rfl⟩, by rw [if_pos hd]; exact ⟨_, rfl, rfl⟩⟩,
          fun _ => Nat.le_add_right _ _⟩⟩
      · have e : (ctxOf d kb).exec st (.tab nm c) = some (.exc .invalidTableName, st) := by
          have hd' : nm ∉ (ctxOf d kb).direct := hd
          simp only [PCtx.exec, hf, if_neg hd']
          cases c <;> first | rfl | (simp [TCall.writes, TCall.anyTable] at hcc)
        rw [e]
        exact ⟨_, st, rfl, fun _ => ⟨s, L, h, .inr ⟨hno, ⟨rfl, rfl⟩, by rw [if_neg hd]; exact ⟨_, rfl, rfl⟩⟩,
          fun _ => Nat.le_add_right _ _⟩⟩

theorem run_ok' (w : Spec.PDecl.WF d) (laws : ∀ i, KeyLaws (keysOf (d.tab i)) (kb i)) :
    ∀ (qs : List PReq) {st : (ctxOf d kb).Sys R} {s : CState n} {L : Ref → Nat}, Rel d kb st s L →
      (∀ q ∈ qs, PConsidered d q) → Tame (ctxOf d kb) st qs →
      (∀ r, n * (2 ^ 24 + 1) + 2 ^ 24 + (L r + left d qs) < 2 ^ 32) →
      ∃ rs st' s' L', (ctxOf d kb).run st qs = some (rs, st') ∧ Rel d kb st' s' L' ∧ ReqTrace d s L qs rs s' L' ∧
        ∀ r, L' r ≤ L r + left d qs
  | [], st, s, L, h, _, _, _ => ⟨[], st, s, L, rfl, h, .nil s L, fun _ => Nat.le_add_right _ _⟩
  | q :: qs, st, s, L, h, hc, ht, hb => by
    obtain ⟨hp, ht⟩ := ht
    have hl : left d (q :: qs) = left1 d q + left d qs := by simp [left]
    obtain ⟨r, st1, e, h1⟩ := exec_ok' w laws (fun x => by have := hb x; rw [Fintype.card_fin]; omega) h q
      (hc q (by simp)) hp
    rw [e] at ht
    obtain ⟨s1, L1, hrel, hstep, hle⟩ := h1 ht.1
    obtain ⟨rs, st2, s2, L2, e2, hrel2, htr, hle2⟩ := run_ok' w laws qs hrel (fun x hx => hc x (by simp [hx])) ht.2
      (fun x => by have h3 := hb x; have h4 := hle x; omega)
    refine ⟨r :: rs, st2, s2, L2, by simp [PCtx.run, e, e2], hrel2, .cons hstep htr, fun x => ?_⟩
    have h4 := hle x
    have h5 := hle2 x
    omega

end

/-! ## Loading -/

theorem wf_keys {d : PDecl n} (w : Spec.PDecl.WF d) (i : Fin n) : Decl.WF (keysOf (d.tab i)) where
  fields := w.fields i
  kinds := w.kinds i
  size := w.size i
  names := by simp [keysOf]
  acts := rfl
  ids := by simp [keysOf]
  dflt := by intro x hx; simp [keysOf] at hx
  entries := by simp [keysOf]
  keyed := by simp [keysOf]
  fits := by simp [keysOf]
  distinct := by simp [keysOf]

theorem load_ok {d : PDecl n} (w : Spec.PDecl.WF d) :
    ∃ kb, PCtx.load d = some (ctxOf d kb) ∧ ∀ i, KeyLaws (keysOf (d.tab i)) (kb i) := by
  have hb : ∀ i, (KeyB.build (d.tab i).fs).isSome = true := by
    intro i
    obtain ⟨kb, e, -⟩ := KeyB.build_ok (d.tab i).fs (wf_fieldsOk (wf_keys w i))
    rw [e]; rfl
  refine ⟨fun i => (KeyB.build (d.tab i).fs).get (hb i), ?_, fun i => ?_⟩
  · unfold PCtx.load PCtx.loadKb
    rw [dif_pos hb]; rfl
  · exact keyLaws (wf_keys w i) (Option.some_get (hb i)).symm

theorem start_ok {d : PDecl n} (w : Spec.PDecl.WF d) {kb : Fin n → KeyB}
    (laws : ∀ i, KeyLaws (keysOf (d.tab i)) (kb i)) (meters : Nat → R) :
    Rel d kb ((ctxOf d kb).start d meters) PState.empty fun _ => 0 := by
  refine ⟨PState.empty, ∅, ∅, PRepL.init _ rfl (fun i => TabRep.init _ _ _ (w.size i) _ _), ?_, ⟨rfl, rfl, rfl, fun i x => trivial⟩,
    ⟨?_, ?_, ?_⟩⟩
  · unfold ISys.cfg kcfg
    congr 1
    funext i
    have := (laws i).empty
    exact decide_eq_decide.2 this
  · intro m x hx; cases hx
  · intro i x k r hx; cases hx
  · intro i r hx; cases hx

end Bm.Thrift
