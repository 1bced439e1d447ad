import Verif.Lemmas.SSPrims
import Verif.Props.SSEgress
import Verif.Props.Sessions

/-!
# C59, C60: primitives of simple_switch
-/

namespace Bm.SSwitch
open Bm.Spec

variable {c : Cfg} {p0 : Phv}

/-- Primitives are used as they should be: only headers of the packet are removed, assignments are to unsigned
metadata fields. -/
def Prim.Ok (p0 : Phv) : Prim → Prop
  | .removeHeader h => ∀ a, p0.headers[h]? = some a → a.metadata = false
  | .assign r _ => ∃ f, mfield p0 r = some f ∧ f.isSigned = false ∧ f.isSaturating = false
  | _ => True

/-- What a primitive asks of a flag. -/
def flagOf (f : Flag) : Prim → Option (BitVec 16)
  | .clone s l =>
    if f = cloneSession then (getU16 s).map (· ||| sessionValid) else if f = cloneList then getU16 l else none
  | .digest l => if f = learnList then getU16 l else none
  | .resubmit l => if f = resubmitFlag then getU16 l else none
  | .recirculate l => if f = recirculateFlag then getU16 l else none
  | _ => none

/-- One primitive. -/
theorem prim_step (hc : Std c p0) (hu : UnionsOk p0) {x : Prim} (hx : x.Ok p0) {p q : Pkt} (m : Made p0 p.phv)
    (e : x.exec c p = some q) :
    Made p0 q.phv ∧ q.inPort = p.inPort ∧ q.inLen = p.inLen ∧ q.data = p.data ∧
    (∀ f ∈ flags, getFlag f q.regs = (flagOf f x).getD (getFlag f p.regs)) ∧
    (∀ r, mval q.phv r = match writes c r x with | none => mval p.phv r | some v => some (stored p0 r v)) ∧
    q.trunc = ((asksTruncate x).map fun n => min n.toNat p.trunc).getD p.trunc := by
  have fl : ∀ f ∈ flags, ∀ g ∈ flags, ∀ v : BitVec 16, ∀ r, getFlag f (setFlag g r v) = if f = g then v else getFlag f r := by
    intro f hf g hg v r
    split
    · rename_i h; subst h; exact setFlag_self hf r v
    · rename_i h; exact setFlag_ne hg hf h r v
  have c1 : cloneSession ∈ flags := by decide
  have c2 : cloneList ∈ flags := by decide
  have c3 : learnList ∈ flags := by decide
  have c4 : resubmitFlag ∈ flags := by decide
  have c5 : recirculateFlag ∈ flags := by decide
  cases x with
  | drop =>
    simp only [Prim.exec, prDrop, Option.bind_eq_bind] at e
    obtain ⟨p1, h1, e1⟩ := Option.bind_eq_some_iff.1 e
    cases e1
    obtain ⟨p2, h2, h3⟩ := Option.bind_eq_some_iff.1 h1
    have hsp := mem_all (n := c.names) |>.2.2.2.1
    obtain ⟨a1, a2, a3⟩ := setF_plain m (hc.plain _ hsp) h2
    cases hg : c.names.mcastGrp with
    | none =>
      rw [hg] at h3
      cases h3
      refine ⟨a1, rfl, rfl, rfl, fun f _ => rfl, fun r => ?_, rfl⟩
      simp only [a3, writes, hg]
      split <;> simp_all
    | some g =>
      rw [hg] at h3
      have hgm : g ∈ c.names.all := by unfold Names.all; simp [hg]
      obtain ⟨b1, b2, b3⟩ := setF_plain a1 (hc.plain _ hgm) h3
      have hne : c.names.egressSpec ≠ g := by
        intro h
        have hnd := hc.apart
        rw [Names.all, hg, ← h] at hnd
        simp at hnd
      refine ⟨b1, rfl, rfl, rfl, fun f _ => rfl, fun r => ?_, rfl⟩
      simp only [b3, a3, writes, hg, Option.some.injEq]
      by_cases h1 : r = g
      · subst h1
        simp [Ne.symm hne]
      · by_cases h2 : r = c.names.egressSpec
        · simp [h2, hne]
        · simp [h1, h2, Ne.symm h1]
  | digest l =>
    simp only [Prim.exec, Option.bind_eq_bind] at e
    obtain ⟨v, h1, e1⟩ := Option.bind_eq_some_iff.1 e
    cases e1
    refine ⟨m, rfl, rfl, rfl, fun f hf => ?_, fun r => rfl, rfl⟩
    simp only [fl f hf _ c3, flagOf, h1]
    split <;> rfl
  | clone s l =>
    simp only [Prim.exec, Option.bind_eq_bind] at e
    obtain ⟨v, h1, e1⟩ := Option.bind_eq_some_iff.1 e
    obtain ⟨w, h2, e2⟩ := Option.bind_eq_some_iff.1 e1
    cases e2
    refine ⟨m, rfl, rfl, rfl, fun f hf => ?_, fun r => rfl, rfl⟩
    simp only [fl f hf _ c2, fl f hf _ c1, flagOf, h1, h2]
    have hne : cloneSession ≠ cloneList := by decide
    by_cases k1 : f = cloneSession
    · subst k1; simp [hne]
    · by_cases k2 : f = cloneList
      · subst k2; simp [k1]
      · simp [k1, k2]
  | resubmit l =>
    simp only [Prim.exec, Option.bind_eq_bind] at e
    obtain ⟨v, h1, e1⟩ := Option.bind_eq_some_iff.1 e
    cases e1
    refine ⟨m, rfl, rfl, rfl, fun f hf => ?_, fun r => rfl, rfl⟩
    simp only [fl f hf _ c4, flagOf, h1]
    split <;> rfl
  | recirculate l =>
    simp only [Prim.exec, Option.bind_eq_bind] at e
    obtain ⟨v, h1, e1⟩ := Option.bind_eq_some_iff.1 e
    cases e1
    refine ⟨m, rfl, rfl, rfl, fun f hf => ?_, fun r => rfl, rfl⟩
    simp only [fl f hf _ c5, flagOf, h1]
    split <;> rfl
  | truncate n =>
    simp only [Prim.exec, Option.bind_eq_bind] at e
    obtain ⟨v, h1, e1⟩ := Option.bind_eq_some_iff.1 e
    cases e1
    refine ⟨m, rfl, rfl, rfl, fun f hf => rfl, fun r => rfl, ?_⟩
    unfold getSize at h1
    split at h1
    · cases h1; rfl
    · cases h1
  | addHeader h =>
    obtain ⟨k, a, h1, h2⟩ := addHeader_spec hu m e
    rcases h2 with ⟨_, rfl⟩ | ⟨_, ⟨n, hq⟩, _⟩
    · exact ⟨m, rfl, rfl, rfl, fun f _ => rfl, fun r => rfl, rfl⟩
    · refine ⟨k.made m, by rw [hq], by rw [hq], by rw [hq], fun f hf => ?_, fun r => k.mval r, by rw [hq]; rfl⟩
      rw [hq]
      exact getFlag_len hf _ _
  | removeHeader h =>
    have hm : ∀ a, p.phv.headers[h]? = some a → a.metadata = false := by
      intro a ha
      obtain ⟨y, hy⟩ : ∃ y, p0.headers[h]? = some y := by
        obtain ⟨hlt, _⟩ := List.getElem?_eq_some_iff.1 ha
        exact ⟨_, List.getElem?_eq_getElem (by rw [← m.len]; exact hlt)⟩
      rw [(m.headers h y a hy ha).metadata]
      exact hx y hy
    obtain ⟨k, a, h1, h2⟩ := removeHeader_spec hm e
    rcases h2 with ⟨_, rfl⟩ | ⟨_, hq, _⟩
    · exact ⟨m, rfl, rfl, rfl, fun f _ => rfl, fun r => rfl, rfl⟩
    · refine ⟨k.made m, by rw [hq], by rw [hq], by rw [hq], fun f hf => ?_, fun r => k.mval r, by rw [hq]; rfl⟩
      rw [hq]
      exact getFlag_len hf _ _
  | assign r0 v =>
    simp only [Prim.exec, Option.bind_eq_bind] at e
    obtain ⟨p1, h1, e1⟩ := Option.bind_eq_some_iff.1 e
    cases e1
    obtain ⟨a1, a2, a3⟩ := setF_plain m hx h1
    refine ⟨a1, rfl, rfl, rfl, fun f _ => rfl, fun r => ?_, rfl⟩
    simp only [a3, writes]
    split <;> simp_all
  | noOp =>
    cases e
    exact ⟨m, rfl, rfl, rfl, fun f _ => rfl, fun r => rfl, rfl⟩

theorem lastAsk_cons {α : Type} (f : Prim → Option α) (x : Prim) (ps : List Prim) :
    lastAsk f (x :: ps) = (lastAsk f ps).or (f x) := by
  unfold lastAsk
  rw [List.reverse_cons, List.findSome?_append]
  simp [List.findSome?_cons]
  cases f x <;> rfl

/-- Flags after primitives. -/
theorem prim_steps (hc : Std c p0) (hu : UnionsOk p0) : ∀ {ps : List Prim}, (∀ x ∈ ps, x.Ok p0) → ∀ {p q : Pkt},
    Made p0 p.phv → Prim.execs c p ps = some q →
    Made p0 q.phv ∧ q.inPort = p.inPort ∧ q.inLen = p.inLen ∧ q.data = p.data ∧
    (∀ f ∈ flags, getFlag f q.regs = (lastAsk (flagOf f) ps).getD (getFlag f p.regs)) ∧
    (∀ r, mval q.phv r =
      match lastAsk (writes c r) ps with | none => mval p.phv r | some v => some (stored p0 r v)) ∧
    q.trunc = (ps.filterMap asksTruncate).foldl (fun t n => min n.toNat t) p.trunc := by
  intro ps
  induction ps with
  | nil =>
    intro _ p q m e
    cases e
    exact ⟨m, rfl, rfl, rfl, fun f _ => rfl, fun r => rfl, rfl⟩
  | cons x ps ih =>
    intro hok p q m e
    simp only [Prim.execs, Option.bind_eq_bind] at e
    obtain ⟨p1, h1, e1⟩ := Option.bind_eq_some_iff.1 e
    obtain ⟨a1, a2, a3, a4, a5, a6, a7⟩ := prim_step hc hu (hok x (by simp)) m h1
    obtain ⟨b1, b2, b3, b4, b5, b6, b7⟩ := ih (fun y hy => hok y (by simp [hy])) a1 e1
    refine ⟨b1, b2.trans a2, b3.trans a3, b4.trans a4, fun f hf => ?_, fun r => ?_, ?_⟩
    · rw [b5 f hf, a5 f hf, lastAsk_cons]
      cases lastAsk (flagOf f) ps <;> rfl
    · rw [b6 r, lastAsk_cons]
      cases lastAsk (writes c r) ps with
      | none => simp only [Option.none_or]; exact a6 r
      | some v => rfl
    · rw [b7, a7]
      cases h : asksTruncate x with
      | none => rw [List.filterMap_cons_none h]; rfl
      | some n => rw [List.filterMap_cons_some h]; rfl

theorem u16 {v : Int} {w : BitVec 16} (h : getU16 v = some w) : 0 ≤ v ∧ v < 65536 ∧ w.toNat = v.toNat := by
  unfold getU16 at h
  have h16 : (2 : Int) ^ 16 = 65536 := by decide
  rw [h16] at h
  split at h
  · rename_i hv
    cases h
    refine ⟨hv.1, hv.2, ?_⟩
    rw [BitVec.toNat_ofNat]
    exact Nat.mod_eq_of_lt (by omega)
  · cases h

/-- Arguments of primitives that ran were in range. -/
theorem prim_u16 : ∀ {ps : List Prim} {p q : Pkt}, Prim.execs c p ps = some q → ∀ x ∈ ps,
    (∀ s l, x = .clone s l → ∃ v w, getU16 s = some v ∧ getU16 l = some w) ∧
    (∀ l, x = .digest l ∨ x = .resubmit l ∨ x = .recirculate l → ∃ v, getU16 l = some v) := by
  intro ps
  induction ps with
  | nil => intro p q _ x hx; cases hx
  | cons y ps ih =>
    intro p q e x hx
    simp only [Prim.execs, Option.bind_eq_bind] at e
    obtain ⟨p1, h1, e1⟩ := Option.bind_eq_some_iff.1 e
    rcases List.mem_cons.1 hx with rfl | hx
    · refine ⟨fun s l h => ?_, fun l h => ?_⟩
      · subst h
        simp only [Prim.exec, Option.bind_eq_bind] at h1
        obtain ⟨v, h2, e2⟩ := Option.bind_eq_some_iff.1 h1
        obtain ⟨w, h3, _⟩ := Option.bind_eq_some_iff.1 e2
        exact ⟨v, w, h2, h3⟩
      · rcases h with rfl | rfl | rfl
        all_goals
          simp only [Prim.exec, Option.bind_eq_bind] at h1
          obtain ⟨v, h2, _⟩ := Option.bind_eq_some_iff.1 h1
          exact ⟨v, h2⟩
    · exact ih e1 x hx

theorem lastAsk_mem {α : Type} {f : Prim → Option α} {ps : List Prim} {a : α} (h : lastAsk f ps = some a) :
    ∃ x ∈ ps, f x = some a := by
  unfold lastAsk at h
  obtain ⟨x, h1, h2⟩ := List.exists_of_findSome?_eq_some h
  exact ⟨x, by simpa using h1, h2⟩

/-- Two ways to look for the last request. -/
theorem lastAsk_map {α β : Type} {f : Prim → Option α} {g : Prim → Option β} {k : α → β} {ps : List Prim}
    (h : ∀ x ∈ ps, g x = (f x).map k) : lastAsk g ps = (lastAsk f ps).map k := by
  induction ps with
  | nil => rfl
  | cons x ps ih =>
    rw [lastAsk_cons, lastAsk_cons, ih (fun y hy => h y (by simp [hy])), h x (by simp)]
    cases lastAsk f ps <;> rfl

/-- **C59**.  After primitives that ran on a packet without requests: the last clone asked for is the one that will
be made, to the session with that id (modulo 32768) and with that field list, and without one there is none; digest,
resubmission and recirculation are asked for with the last list given, and not asked for if none (or list 0) was
given; every metadata field has the last value written, drop writing the drop port and group 0; the packet is cut
to the least length asked for; payload and arrival port are as before. -/
theorem C59 (hc : Std c p0) (hu : UnionsOk p0) {ps : List Prim} (hok : ∀ x ∈ ps, x.Ok p0) {p q : Pkt}
    (m : Made p0 p.phv) (hn : NoFlags p) (e : Prim.execs c p ps = some q) :
    (match lastAsk asksClone ps with
      | none => getFlag cloneSession q.regs = 0
      | some (s, l) => 0 ≤ s ∧ 0 ≤ l ∧ getFlag cloneSession q.regs ≠ 0 ∧
          (((getFlag cloneSession q.regs &&& sessionMask).toNat : Nat) : Int) = s % 32768 ∧
          ((getFlag cloneList q.regs).toNat : Int) = l) ∧
    ((getFlag learnList q.regs).toNat : Int) = (lastAsk asksDigest ps).getD 0 ∧
    ((getFlag resubmitFlag q.regs).toNat : Int) = (lastAsk asksResubmit ps).getD 0 ∧
    ((getFlag recirculateFlag q.regs).toNat : Int) = (lastAsk asksRecirculate ps).getD 0 ∧
    (∀ r, mval q.phv r =
      match lastAsk (writes c r) ps with | none => mval p.phv r | some v => some (stored p0 r v)) ∧
    q.trunc = (ps.filterMap asksTruncate).foldl (fun t n => min n.toNat t) p.trunc ∧
    q.data = p.data ∧ q.inPort = p.inPort ∧ q.inLen = p.inLen ∧ Made p0 q.phv := by
  obtain ⟨a1, a2, a3, a4, a5, a6, a7⟩ := prim_steps hc hu hok m e
  have hu16 := prim_u16 e
  have c1 : cloneSession ∈ flags := by decide
  have c2 : cloneList ∈ flags := by decide
  have one : ∀ (f : Flag) (_ : f ∈ flags) (ask : Prim → Option Int),
      (∀ x ∈ ps, flagOf f x = (ask x).map fun l => BitVec.ofNat 16 l.toNat) →
      (∀ x ∈ ps, ∀ l, ask x = some l → ∃ v, getU16 l = some v) →
      ((getFlag f q.regs).toNat : Int) = (lastAsk ask ps).getD 0 := by
    intro f hf ask h1 h2
    rw [a5 f hf, lastAsk_map h1, hn f hf]
    cases hl : lastAsk ask ps with
    | none => rfl
    | some l =>
      obtain ⟨x, hx, hxl⟩ := lastAsk_mem hl
      obtain ⟨v, hv⟩ := h2 x hx l hxl
      obtain ⟨g1, g2, _⟩ := u16 hv
      simp only [Option.map_some, Option.getD_some, BitVec.toNat_ofNat]
      omega
  have u : ∀ {l : Int} {v : BitVec 16}, getU16 l = some v → getU16 l = some (BitVec.ofNat 16 l.toNat) := by
    intro l v h
    unfold getU16 at h ⊢
    split at h
    · rename_i hv; rw [if_pos hv]
    · cases h
  refine ⟨?_, ?_, ?_, ?_, a6, a7, a4, a2, a3, a1⟩
  · have hs : lastAsk (flagOf cloneSession) ps =
        (lastAsk asksClone ps).map fun sl => BitVec.ofNat 16 sl.1.toNat ||| sessionValid := by
      refine lastAsk_map fun x hx => ?_
      cases x <;> try rfl
      rename_i s l
      obtain ⟨v, w, h1, h2⟩ := (hu16 _ hx).1 s l rfl
      simp [flagOf, asksClone, u h1]
    have hl : lastAsk (flagOf cloneList) ps = (lastAsk asksClone ps).map fun sl => BitVec.ofNat 16 sl.2.toNat := by
      refine lastAsk_map fun x hx => ?_
      have hne : cloneList ≠ cloneSession := by decide
      cases x <;> try rfl
      rename_i s l
      obtain ⟨v, w, h1, h2⟩ := (hu16 _ hx).1 s l rfl
      simp [flagOf, asksClone, u h2, hne]
    have b1 := a5 _ c1
    have b2 := a5 _ c2
    rw [hs] at b1
    rw [hl] at b2
    cases hk : lastAsk asksClone ps with
    | none =>
      rw [hk] at b1
      rw [b1]
      exact hn _ c1
    | some sl =>
      obtain ⟨s, l⟩ := sl
      obtain ⟨x, hx, hxl⟩ := lastAsk_mem hk
      have : x = .clone s l := by
        cases x <;> simp [asksClone] at hxl
        simp [hxl]
      obtain ⟨v, w, h1, h2⟩ := (hu16 _ hx).1 s l this
      obtain ⟨g1, g2, g3⟩ := u16 h1
      obtain ⟨g4, g5, g6⟩ := u16 h2
      rw [hk] at b1 b2
      simp only [Option.map_some, Option.getD_some] at b1 b2
      obtain ⟨d1, d2⟩ := C55_clone (BitVec.ofNat 16 s.toNat)
      simp only
      rw [b1, b2]
      refine ⟨g1, g4, d1, ?_, ?_⟩
      · rw [d2, BitVec.toNat_ofNat]
        omega
      · rw [BitVec.toNat_ofNat]
        omega
  · refine one _ (by decide) _ (fun x hx => ?_) (fun x hx l hl => ?_)
    · have hne : learnList ≠ cloneSession := by decide
      have hne2 : learnList ≠ cloneList := by decide
      cases x <;> try rfl
      · rename_i l
        obtain ⟨v, hv⟩ := (hu16 _ hx).2 l (.inl rfl)
        simp [flagOf, asksDigest, u hv]
    · cases x <;> simp [asksDigest] at hl
      subst hl
      exact (hu16 _ hx).2 _ (.inl rfl)
  · refine one _ (by decide) _ (fun x hx => ?_) (fun x hx l hl => ?_)
    · cases x <;> try rfl
      · rename_i l
        obtain ⟨v, hv⟩ := (hu16 _ hx).2 l (.inr (.inl rfl))
        simp [flagOf, asksResubmit, u hv]
    · cases x <;> simp [asksResubmit] at hl
      subst hl
      exact (hu16 _ hx).2 _ (.inr (.inl rfl))
  · refine one _ (by decide) _ (fun x hx => ?_) (fun x hx l hl => ?_)
    · cases x <;> try rfl
      · rename_i l
        obtain ⟨v, hv⟩ := (hu16 _ hx).2 l (.inr (.inr rfl))
        simp [flagOf, asksRecirculate, u hv]
    · cases x <;> simp [asksRecirculate] at hl
      subst hl
      exact (hu16 _ hx).2 _ (.inr (.inr rfl))

/-- A packet dropped in ingress, by primitives after which neither `egress_spec` nor the group is written: clones and
digests are all that is left of it, if no resubmission was asked for. -/
theorem C59_drop (hc : Std c p0) (hu : UnionsOk p0) {xs ys : List Prim} (hok : ∀ x ∈ xs ++ .drop :: ys, x.Ok p0)
    {p q : Pkt} (m : Made p0 p.phv) (hn : NoFlags p) (e : Prim.execs c p (xs ++ .drop :: ys) = some q)
    (hlast : ∀ x ∈ ys, writes c c.names.egressSpec x = none ∧ ∀ g, c.names.mcastGrp = some g → writes c g x = none)
    (hres : lastAsk asksResubmit (xs ++ .drop :: ys) = none)
    (hport : c.dropPort < 2 ^ width p0 c.names.egressSpec)
    {oc o : Oracle} (hoc : ∀ i, Made p0 (oc i).stale) (ho : ∀ i, Made p0 (o i).stale) {saved : Bytes}
    {size : BitVec 64} {es : List Eff} (ee : ingressEnd c oc o q saved size = some es) :
    ∃ clones digests, es = clones ++ digests ∧ Clones c p0 (oc 0).stale q saved size clones ∧
      Digests q digests := by
  obtain ⟨_, _, hr, _, hmd, _, _, _, _, mq⟩ := C59 hc hu hok m hn e
  have last : ∀ (r : Ref) (v : Int), writes c r .drop = some v → (∀ x ∈ ys, writes c r x = none) →
      lastAsk (writes c r) (xs ++ .drop :: ys) = some v := by
    intro r v h1 h2
    unfold lastAsk
    rw [List.reverse_append, List.reverse_cons, List.findSome?_append, List.findSome?_append]
    have : ys.reverse.findSome? (writes c r) = none := by
      rw [List.findSome?_eq_none_iff]
      intro x hx
      exact h2 x (by simpa using hx)
    rw [this]
    simp [List.findSome?_cons, h1]
  have hspec : mval q.phv c.names.egressSpec = some (c.dropPort : Int) := by
    rw [hmd, last _ c.dropPort (by simp [writes]) (fun x hx => (hlast x hx).1)]
    simp only [stored, Option.some.injEq]
    rw [Int.emod_eq_of_lt (by positivity)]
    exact_mod_cast hport
  have hgrp : GroupIs c (mval q.phv) 0 := by
    unfold GroupIs
    cases hg : c.names.mcastGrp with
    | none => rfl
    | some g =>
      have hne : g ≠ c.names.egressSpec := by
        intro h
        have hnd := hc.apart
        rw [Names.all, hg, h] at hnd
        simp at hnd
      simp only
      rw [hmd, last g 0 (by simp [writes, hg, hne]) (fun x hx => (hlast x hx).2 g hg)]
      simp [stored]
  obtain ⟨clones, digests, fate, k1, k2, k3, k4⟩ := C42 hc hoc ho mq ee
  have hf : fate = [] := by
    rw [hres] at hr
    have hr0 : getFlag resubmitFlag q.regs = 0 := by
      apply BitVec.eq_of_toNat_eq
      simpa using hr
    rcases C42_one k4 with ⟨h, _⟩ | ⟨_, ⟨g, h1, h2⟩, _⟩ | ⟨_, _, _, h⟩ | ⟨_, _, h, _⟩
    · exact absurd hr0 h
    · exfalso
      unfold GroupIs at h2 hgrp
      cases hg : c.names.mcastGrp with
      | none => rw [hg] at h2; exact h1 h2
      | some r =>
        rw [hg] at h2 hgrp
        simp only at h2 hgrp
        rw [hgrp] at h2
        simp only [Option.some.injEq] at h2
        exact h1 (by omega)
    · exact h
    · exact absurd hspec h
  refine ⟨clones, digests, by rw [k1, hf, List.append_nil], k2, k3⟩

/-! ## The length register -/

theorem sum_set (l : List Nat) (i x y : Nat) (h : l[i]? = some y) : (l.set i x).sum + y = l.sum + x := by
  induction l generalizing i with
  | nil => cases h
  | cons a l ih =>
    cases i with
    | zero =>
      simp only [List.getElem?_cons_zero, Option.some.injEq] at h
      subst h
      simp only [List.set_cons_zero, List.sum_cons]
      omega
    | succ i =>
      simp only [List.getElem?_cons_succ] at h
      have := ih i h
      simp only [List.set_cons_succ, List.sum_cons]
      omega

/-- Bytes of one header. -/
def wireOf (h : Header) : Nat := if h.valid && !h.metadata then h.nbytesPacket else 0

theorem wire_set {p p' : Phv} {h : Nat} {a b : Header} (ha : p.headers[h]? = some a)
    (hp : p'.headers = p.headers.set h b) : wire p' + wireOf a = wire p + wireOf b := by
  unfold wire
  rw [hp, List.map_set]
  exact sum_set _ h (wireOf b) (wireOf a) (by rw [List.getElem?_map, ha]; rfl)

theorem wire_setF {rz : Bool} {p p' : Phv} {r : Ref} {v : Int} (e : setF rz p r v = some p') : wire p' = wire p := by
  simp only [setF, Parse.updField, Phv.updHeader, Option.bind_eq_bind] at e
  obtain ⟨a, h1, e1⟩ := Option.bind_eq_some_iff.1 e
  obtain ⟨b, h2, e2⟩ := Option.bind_eq_some_iff.1 e1
  cases e2
  obtain ⟨f, h3, e3⟩ := Option.bind_eq_some_iff.1 h2
  obtain ⟨f', h4, e4⟩ := Option.bind_eq_some_iff.1 e3
  cases e4
  have := wire_set (p' := { p with headers := p.headers.set r.1 { a with fields := a.fields.set r.2 f' } }) h1 rfl
  have hw : wireOf { a with fields := a.fields.set r.2 f' } = wireOf a := rfl
  rw [hw] at this
  omega

/-- Headers that are added are in no union. -/
def Prim.Single (p0 : Phv) : Prim → Prop
  | .addHeader h => p0.memb[h]? = some none
  | _ => True

/-- **C60**.  The length register stays the length of the packet (headers and payload) whatever primitives do, if
headers that they add are in no union.  (Refuted below for unions.) -/
theorem C60_partial (hc : Std c p0) (hu : UnionsOk p0) : ∀ {ps : List Prim}, (∀ x ∈ ps, x.Ok p0 ∧ x.Single p0) →
    ∀ {p q : Pkt}, Made p0 p.phv → Prim.execs c p ps = some q →
    p.regs lenReg = BitVec.ofNat 64 (wire p.phv + p.data.length) →
    q.regs lenReg = BitVec.ofNat 64 (wire q.phv + q.data.length) := by
  intro ps
  induction ps with
  | nil => intro _ p q _ e h; cases e; exact h
  | cons x ps ih =>
    intro hok p q m e h
    simp only [Prim.execs, Option.bind_eq_bind] at e
    obtain ⟨p1, h1, e1⟩ := Option.bind_eq_some_iff.1 e
    obtain ⟨hx, hs⟩ := hok x (by simp)
    have a := prim_step hc hu hx m h1
    refine ih (fun y hy => hok y (by simp [hy])) a.1 e1 ?_
    rw [a.2.2.2.1]
    have hreg : ∀ (f : Flag) (_ : f ∈ flags) (r : Regs) (v : BitVec 16), setFlag f r v lenReg = r lenReg :=
      fun f hf r v => setFlag_len hf r v
    cases x with
    | drop =>
      simp only [Prim.exec, prDrop, Option.bind_eq_bind] at h1
      obtain ⟨p2, h2, e2⟩ := Option.bind_eq_some_iff.1 h1
      cases e2
      obtain ⟨p3, h3, h4⟩ := Option.bind_eq_some_iff.1 h2
      have w1 := wire_setF h3
      have w2 : wire p2 = wire p3 := by
        cases hg : c.names.mcastGrp with
        | none => rw [hg] at h4; cases h4; rfl
        | some g => rw [hg] at h4; exact wire_setF h4
      simp only [w2, w1]
      exact h
    | digest l =>
      simp only [Prim.exec, Option.bind_eq_bind] at h1
      obtain ⟨v, h2, e2⟩ := Option.bind_eq_some_iff.1 h1
      cases e2
      exact (hreg learnList (by decide) p.regs v).trans h
    | clone s l =>
      simp only [Prim.exec, Option.bind_eq_bind] at h1
      obtain ⟨v, h2, e2⟩ := Option.bind_eq_some_iff.1 h1
      obtain ⟨w, h3, e3⟩ := Option.bind_eq_some_iff.1 e2
      cases e3
      exact ((hreg cloneList (by decide) _ w).trans (hreg cloneSession (by decide) p.regs (v ||| sessionValid))).trans h
    | resubmit l =>
      simp only [Prim.exec, Option.bind_eq_bind] at h1
      obtain ⟨v, h2, e2⟩ := Option.bind_eq_some_iff.1 h1
      cases e2
      exact (hreg resubmitFlag (by decide) p.regs v).trans h
    | recirculate l =>
      simp only [Prim.exec, Option.bind_eq_bind] at h1
      obtain ⟨v, h2, e2⟩ := Option.bind_eq_some_iff.1 h1
      cases e2
      exact (hreg recirculateFlag (by decide) p.regs v).trans h
    | truncate n =>
      simp only [Prim.exec, Option.bind_eq_bind] at h1
      obtain ⟨v, h2, e2⟩ := Option.bind_eq_some_iff.1 h1
      cases e2
      exact h
    | addHeader i =>
      obtain ⟨_, b, h2, h3⟩ := addHeader_spec hu m h1
      rcases h3 with ⟨_, rfl⟩ | ⟨hv, _, h4⟩
      · exact h
      · obtain ⟨k1, b', k2, k3, k4, k5⟩ := h4 (by rw [m.layout.memb]; exact hs)
        have hw := wire_set h2 k5
        have hv' : b.valid = false := by
          unfold Header.isValid at hv
          simp only [Bool.or_eq_false_iff] at hv
          exact hv.2
        have w1 : wireOf b = 0 := by unfold wireOf; simp [hv']
        have w2 : wireOf b' = b.nbytesPacket := by unfold wireOf; simp [k3, k4, k2]
        rw [w1, w2] at hw
        rw [k1, h, ← BitVec.ofNat_add]
        congr 1
        omega
    | removeHeader i =>
      have hm : ∀ a, p.phv.headers[i]? = some a → a.metadata = false := by
        intro a ha
        obtain ⟨y, hy⟩ : ∃ y, p0.headers[i]? = some y := by
          obtain ⟨hlt, _⟩ := List.getElem?_eq_some_iff.1 ha
          exact ⟨_, List.getElem?_eq_getElem (by rw [← m.len]; exact hlt)⟩
        rw [(m.headers i y a hy ha).metadata]
        exact hx y hy
      obtain ⟨_, b, h2, h3⟩ := removeHeader_spec hm h1
      rcases h3 with ⟨_, rfl⟩ | ⟨hv, hq, b', k2, k3, k4, k5⟩
      · exact h
      · have hw := wire_set h2 k5
        have w1 : wireOf b = b.nbytesPacket := by unfold wireOf; simp [hv, hm b h2]
        have w2 : wireOf b' = 0 := by unfold wireOf; simp [k4]
        rw [w1, w2] at hw
        have hr : p1.regs lenReg = p.regs lenReg - BitVec.ofNat 64 b.nbytesPacket := by
          rw [hq]; simp [setReg]
        have hsum : wire p.phv + p.data.length = wire p1.phv + p.data.length + b.nbytesPacket := by omega
        rw [hr, h, hsum, BitVec.ofNat_add, BitVec.add_sub_cancel]
    | assign r v =>
      simp only [Prim.exec, Option.bind_eq_bind] at h1
      obtain ⟨p2, h2, e2⟩ := Option.bind_eq_some_iff.1 h1
      cases e2
      simp only [wire_setF h2]
      exact h
    | noOp => cases h1; exact h

end Bm.SSwitch

namespace Bm.SSwitch.Ex
open Bm.Spec

/-- A new packet with three bytes. -/
def fresh : Pkt :=
  { inPort := 2, ePort := 0, inLen := 3, data := [1, 2, 3], trunc := noTrunc, phv := p0,
    regs := setReg (fun _ => 0) lenReg 3, exit := false }

/-- Requests, a drop and a header. -/
def prims : List Prim :=
  [.clone 4 0, .assign (0, 3) 7, .clone 5 1, .digest 1, .drop, .addHeader 1, .truncate 2, .truncate 60, .assign (0, 7) 9]

/-- The hypotheses of `C59`, `C59_drop` and `C60_partial` hold there. -/
example : UnionsOk p0 ∧ (∀ x ∈ prims, x.Ok p0 ∧ x.Single p0) ∧ Made p0 fresh.phv ∧ NoFlags fresh ∧
    (Prim.execs c fresh prims).isSome = true ∧ lastAsk asksResubmit prims = none ∧
    fresh.regs lenReg = BitVec.ofNat 64 (wire fresh.phv + fresh.data.length) ∧
    c.dropPort < 2 ^ width p0 c.names.egressSpec := by
  have hn : NoFlags fresh := by
    show ∀ f ∈ flags, getFlag f (setReg (fun _ => 0) lenReg 3) = 0
    decide +kernel
  refine ⟨fun u hu => (by cases hu), ?_, std.made, hn, by decide +kernel, rfl, by decide +kernel, by decide +kernel⟩
  intro x hx
  have hf : ∀ r ∈ [((0 : Nat), (3 : Nat)), (0, 7)],
      ((mfield p0 r).map fun f => (f.isSigned, f.isSaturating)) = some (false, false) := by decide +kernel
  have hf' : ∀ r ∈ [((0 : Nat), (3 : Nat)), (0, 7)], ∃ f, mfield p0 r = some f ∧ f.isSigned = false ∧
      f.isSaturating = false := by
    intro r hr
    have := hf r hr
    cases h : mfield p0 r with
    | none => rw [h] at this; cases this
    | some f =>
      rw [h] at this
      simp only [Option.map_some, Option.some.injEq, Prod.mk.injEq] at this
      exact ⟨f, rfl, this⟩
  simp only [prims, List.mem_cons, List.not_mem_nil, or_false] at hx
  rcases hx with rfl | rfl | rfl | rfl | rfl | rfl | rfl | rfl | rfl
  · exact ⟨trivial, trivial⟩
  · exact ⟨hf' (0, 3) (by decide), trivial⟩
  · exact ⟨trivial, trivial⟩
  · exact ⟨trivial, trivial⟩
  · exact ⟨trivial, trivial⟩
  · exact ⟨trivial, rfl⟩
  · exact ⟨trivial, trivial⟩
  · exact ⟨trivial, trivial⟩
  · exact ⟨hf' (0, 7) (by decide), trivial⟩

/-- The packet after them: flags, `egress_spec`, length. -/
example : ((Prim.execs c fresh prims).map fun q =>
    [(getFlag cloneSession q.regs &&& sessionMask).toNat, (getFlag cloneList q.regs).toNat,
     (getFlag learnList q.regs).toNat, (getFlag resubmitFlag q.regs).toNat, (q.regs lenReg).toNat, q.trunc]) =
    some [5, 1, 1, 0, 4, 2] ∧
    ((Prim.execs c fresh prims).bind fun q => mval q.phv (0, 3)) = some 511 := by decide +kernel

/-- A header field and the hidden field for validity. -/
def hf (n : Nat) : List Field := [fld n, (Field.mk' 1 true false false true false).getD (fld 1)]

/-- A union of two headers, one byte and two bytes. -/
def pu : Phv :=
  { headers := [⟨0, none, [fld 9, fld 32, fld 32, fld 9, fld 9, fld 16, fld 16, fld 8], false, true, 0⟩,
                ⟨1, none, hf 8, false, false, 1⟩, ⟨2, none, hf 16, false, false, 2⟩],
    memb := [none, some (0, 0), some (0, 1)], unions := [⟨[1, 2], false, 0⟩], hstacks := [], unionStacks := [] }

/-- **C60 does not hold for unions**.  Adding the second header of a union makes the first one invalid, but its bytes
are still counted. -/
theorem C60_refuted :
    fresh.regs lenReg = BitVec.ofNat 64 (wire pu + fresh.data.length) ∧
    ((Prim.execs c { fresh with phv := pu } [.addHeader 1, .addHeader 2]).map fun q =>
      ((q.regs lenReg).toNat, wire q.phv + q.data.length)) = some (6, 5) := by decide +kernel

end Bm.SSwitch.Ex
