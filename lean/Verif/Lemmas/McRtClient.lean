import Verif.Lemmas.McRtStep

/-!
# Lemmas about the clients of the multicast requests
-/

namespace Bm.McRt

open Bm.Pre Bm.Spec.Mc Bm.Spec.McRt

/-! ## Command line tool -/

theorem mapStr_some (ps : List Int) (last : Int) (acc : List Char) (h0 : 0 ≤ last)
    (hs : ps.Pairwise (· < ·)) (hge : ∀ p ∈ ps, last ≤ p) (hl : acc.length = last.toNat)
    (hb : ∀ c ∈ acc, c = '0' ∨ c = '1') :
    ∃ out, mapStr ps last acc = some out ∧ (∀ c ∈ out, c = '0' ∨ c = '1') ∧
      (∀ i : Nat, out[i]? = some '1' ↔ acc[i]? = some '1' ∨ (i : Int) ∈ ps) ∧
      (∀ N : Nat, acc.length ≤ N → (∀ p ∈ ps, p < N) → out.length ≤ N) := by
  induction ps generalizing last acc with
  | nil => exact ⟨acc, rfl, hb, by simp, fun N h _ => h⟩
  | cons p ps ih =>
    obtain ⟨h1, h2⟩ := List.pairwise_cons.1 hs
    have hp := hge p (by simp)
    set acc' := acc ++ (List.replicate (p - last).toNat '0' ++ ['1']) with hacc
    have hlen : acc'.length = (p + 1).toNat := by simp [hacc]; omega
    obtain ⟨out, e1, e2, e3, e4⟩ := ih (p + 1) acc' (by omega) h2
      (fun q hq => by have := h1 q hq; omega) hlen (by
        intro c hc
        simp only [hacc, List.mem_append, List.mem_replicate, List.mem_singleton] at hc
        rcases hc with hc | ⟨_, hc⟩ | hc
        · exact hb c hc
        · exact .inl hc
        · exact .inr hc)
    refine ⟨out, by rw [mapStr, if_neg (by omega)]; exact e1, e2, fun i => ?_, fun N hN hps => ?_⟩
    · rw [e3]
      have : acc'[i]? = some '1' ↔ acc[i]? = some '1' ∨ (i : Int) = p := by
        rw [hacc, List.getElem?_append]
        by_cases hi : i < acc.length
        · rw [if_pos hi]
          constructor
          · exact .inl
          · rintro (h | h)
            · exact h
            · omega
        · rw [if_neg hi, List.getElem?_append]
          have hnone : acc[i]? = none := List.getElem?_eq_none (by omega)
          simp only [List.length_replicate, hnone]
          by_cases hj : i - acc.length < (p - last).toNat
          · rw [if_pos hj]
            simp [List.getElem?_replicate]
            omega
          · rw [if_neg hj]
            by_cases hk : (i : Int) = p
            · have : i - acc.length - (p - last).toNat = 0 := by omega
              simp [this, hk]
            · have : i - acc.length - (p - last).toNat ≠ 0 := by omega
              obtain ⟨m, hm⟩ := Nat.exists_eq_succ_of_ne_zero this
              simp [hm, hk]
      rw [this]
      simp only [List.mem_cons]
      tauto
    · refine e4 N ?_ (fun q hq => hps q (by simp [hq]))
      rw [hlen]
      have := hps p (by simp)
      omega

theorem mapStr_none (ps : List Int) (last : Int) (acc : List Char)
    (hs : ps.Pairwise (· ≤ ·)) (hd : ¬ ps.Nodup) : mapStr ps last acc = none := by
  induction ps generalizing last acc with
  | nil => simp at hd
  | cons p ps ih =>
    obtain ⟨h1, h2⟩ := List.pairwise_cons.1 hs
    rw [mapStr]
    split
    · rfl
    · by_cases hp : p ∈ ps
      · cases ps with
        | nil => simp at hp
        | cons q qs =>
          have hq : q = p := by
            have a := h1 q (by simp)
            rcases List.mem_cons.1 hp with h | h
            · exact h.symm
            · have := (List.pairwise_cons.1 h2).1 p h
              omega
          rw [mapStr, if_pos (by omega)]
      · exact ih _ _ h2 fun h => hd (List.nodup_cons.2 ⟨hp, h⟩)

/-- The strings that the tool makes. -/
theorem portMapStr_spec (ports : List Int) :
    match CliPorts ports with
    | none => portMapStr ports = none
    | some S => ∃ s, portMapStr ports = some s ∧ (∀ c ∈ s, c = '0' ∨ c = '1') ∧
        (∀ p, Lists s p ↔ p ∈ S) ∧ ∀ N, (∀ p ∈ S, p < N) → s.length ≤ N := by
  have hperm := List.mergeSort_perm ports (fun a b => decide (a ≤ b))
  have hsort : (ports.mergeSort (fun a b => decide (a ≤ b))).Pairwise (· ≤ ·) := by
    have := List.pairwise_mergeSort (le := fun a b : Int => decide (a ≤ b))
      (by intro a b c; simp; omega) (by intro a b; simp; omega) ports
    exact this.imp (by simp)
  have hany : ports.any (· < 0) = true ↔ ¬ ∀ p ∈ ports, 0 ≤ p := by simp
  by_cases hneg : ∀ p ∈ ports, 0 ≤ p
  · have hstr : portMapStr ports
        = (mapStr (ports.mergeSort (fun a b => decide (a ≤ b))) 0 []).map List.reverse :=
      if_neg (fun h => hany.1 h hneg)
    by_cases hnd : ports.Nodup
    · rw [show CliPorts ports = some (ports.map Int.toNat).toFinset from if_pos ⟨hneg, hnd⟩]
      have hnd' : (ports.mergeSort (fun a b => decide (a ≤ b))).Nodup := hperm.nodup_iff.2 hnd
      have hlt : (ports.mergeSort (fun a b => decide (a ≤ b))).Pairwise (· < ·) := by
        have := hsort.and hnd'
        exact this.imp (by intro a b h; obtain ⟨h1, h2⟩ := h; omega)
      obtain ⟨out, e1, e2, e3, e4⟩ := mapStr_some _ 0 [] (by omega) hlt
        (fun p hp => hneg p (hperm.mem_iff.1 hp)) rfl (by simp)
      refine ⟨out.reverse, by rw [hstr, e1]; rfl, by simpa using e2, fun p => ?_, fun N hN => ?_⟩
      · rw [Lists, List.reverse_reverse, e3, hperm.mem_iff]
        simp only [List.getElem?_nil, false_or, List.mem_toFinset, List.mem_map]
        constructor
        · rintro (h | h)
          · cases h
          · exact ⟨p, h, by omega⟩
        · rintro ⟨q, hq, rfl⟩
          have := hneg q hq
          rw [show ((q.toNat : Nat) : Int) = q by omega]
          exact .inr hq
      · rw [List.length_reverse]
        refine e4 N (by simp) (fun p hp => ?_)
        have hp' := hperm.mem_iff.1 hp
        have := hN p.toNat (by simp only [List.mem_toFinset, List.mem_map]; exact ⟨p, hp', rfl⟩)
        have := hneg p hp'
        omega
    · rw [show CliPorts ports = none from if_neg (fun h => hnd h.2)]
      simp only
      rw [hstr, mapStr_none _ _ _ hsort (fun h => hnd (hperm.nodup_iff.1 h))]
      rfl
  · rw [show CliPorts ports = none from if_neg (fun h => hneg h.1)]
    exact if_pos (hany.2 hneg)

theorem portsOf_of (s : List Char) (S : Finset Nat) (hb : ∀ c ∈ s, c = '0' ∨ c = '1')
    (hS : ∀ p, Lists s p ↔ p ∈ S) (hlt : ∀ p ∈ S, p < 512) : portsOf s = some S := by
  rw [portsOf, if_pos ⟨hb, fun p _ h => hlt p ((hS p).1 h)⟩]
  congr 1
  ext p
  rw [Finset.mem_filter, Finset.mem_range]
  constructor
  · exact fun h => (hS p).1 h.2
  · intro h
    have hl := (hS p).2 h
    refine ⟨?_, hl⟩
    unfold Lists at hl
    have := (List.getElem?_eq_some_iff.1 hl).1
    simpa using this

/-! ## PD library -/

theorem bit_test (b : UInt8) (m : Nat) (hm : m < 8) :
    b &&& (1 <<< UInt8.ofNat m) ≠ 0 ↔ b.toBitVec.getLsbD m = true := by
  have key : ∀ (v : BitVec 8) (k : Fin 8), ((v &&& (1#8 <<< k.val)) ≠ 0#8) ↔ v.getLsbD k.val = true := by
    intro v k
    constructor
    · intro h
      by_contra hn
      apply h
      apply BitVec.eq_of_getLsbD_eq
      intro i hi
      rw [BitVec.getLsbD_and, BitVec.getLsbD_shiftLeft]
      by_cases hik : i = k.val
      · subst hik; rw [Bool.eq_false_iff.2 hn]; simp
      · by_cases hlt : i < k.val
        · simp [hlt]
        · have : i - k.val ≠ 0 := by omega
          simp [this]
    · intro h he
      have := congrArg (fun w => w.getLsbD k.val) he
      simp only [BitVec.getLsbD_and, h, BitVec.getLsbD_shiftLeft] at this
      simp [k.isLt] at this
  have := key b.toBitVec ⟨m, hm⟩
  rw [← this]
  have e : (1 <<< UInt8.ofNat m : UInt8).toBitVec = 1#8 <<< m := by
    have : ∀ k : Fin 8, (1 <<< UInt8.ofNat k.val : UInt8).toBitVec = 1#8 <<< k.val := by decide
    exact this ⟨m, hm⟩
  constructor
  · intro h hc
    apply h
    apply UInt8.toBitVec_inj.1
    rw [UInt8.toBitVec_and, e]
    exact hc
  · intro h hc
    apply h
    rw [← e, ← UInt8.toBitVec_and, hc]
    rfl

/-- Bit `j` of a PD map. -/
def pdBit (input : List UInt8) (j : Nat) : Bool := (input.getD (j / 8) 0).toBitVec.getLsbD (j % 8)

theorem convertLoop_some (input : List UInt8) (hl : 64 ≤ input.length) (k : Nat) (hk : k ≤ 512)
    (out : List Char) (ho : out.length = 512) :
    ∃ out', convertLoop input k out = some out' ∧ out'.length = 512 ∧
      ∀ j < 512, out'[511 - j]? =
        if 512 - k ≤ j ∧ pdBit input j = true then some '1' else out[511 - j]? := by
  induction k generalizing out with
  | zero =>
    refine ⟨out, rfl, ho, fun j hj => ?_⟩
    rw [if_neg (by omega)]
  | succ k ih =>
    have hi : (512 - (k + 1)) / 8 < input.length := by omega
    have hget : input[(512 - (k + 1)) / 8]? = some (input[(512 - (k + 1)) / 8]) :=
      List.getElem?_eq_getElem hi
    have hbit : pdBit input (512 - (k + 1))
        = (input[(512 - (k + 1)) / 8]).toBitVec.getLsbD ((512 - (k + 1)) % 8) := by
      unfold pdBit
      rw [List.getD_eq_getElem?_getD, hget]
      rfl
    obtain ⟨out', e1, e2, e3⟩ := ih (by omega)
      (if input[(512 - (k + 1)) / 8] &&& (1 <<< (UInt8.ofNat ((512 - (k + 1)) % 8))) ≠ 0 then
        out.set (512 - 1 - (512 - (k + 1))) '1' else out) (by split <;> simp [ho])
    refine ⟨out', by rw [convertLoop]; simp only [hget, Option.bind_eq_bind, Option.bind_some]; exact e1,
      e2, fun j hj => ?_⟩
    rw [e3 j hj]
    have ht := bit_test (input[(512 - (k + 1)) / 8]) ((512 - (k + 1)) % 8) (by omega)
    rw [← hbit] at ht
    by_cases hjk : j = 512 - (k + 1)
    · subst hjk
      rw [if_neg (show ¬ (512 - k ≤ 512 - (k + 1) ∧ pdBit input (512 - (k + 1)) = true) from
        fun h => by omega)]
      by_cases hb : pdBit input (512 - (k + 1)) = true
      · rw [if_pos (ht.2 hb), if_pos ⟨Nat.le_refl _, hb⟩,
          show 511 - (512 - (k + 1)) = 512 - 1 - (512 - (k + 1)) by omega, List.getElem?_set_self (by omega)]
      · rw [if_neg (fun h => hb (ht.1 h)), if_neg (fun h => hb h.2)]
    · have hne : 512 - 1 - (512 - (k + 1)) ≠ 511 - j := by omega
      have hr : (if input[(512 - (k + 1)) / 8] &&& (1 <<< (UInt8.ofNat ((512 - (k + 1)) % 8))) ≠ 0
          then out.set (512 - 1 - (512 - (k + 1))) '1' else out)[511 - j]? = out[511 - j]? := by
        split
        · rw [List.getElem?_set_ne hne]
        · rfl
      rw [hr]
      refine if_congr ?_ rfl rfl
      constructor
      · rintro ⟨a, b⟩; exact ⟨by omega, b⟩
      · rintro ⟨a, b⟩; exact ⟨by omega, b⟩

theorem convertMap_spec (input : List UInt8) (hl : 64 ≤ input.length) :
    ∃ s, convertMap input = some s ∧ s.length = 512 ∧ portsOf s = some (pdPorts input) := by
  obtain ⟨s, e1, e2, e3⟩ := convertLoop_some input hl 512 (Nat.le_refl _) (List.replicate 512 '0')
    List.length_replicate
  have hrev : ∀ j < 512, s.reverse[j]? = s[511 - j]? := by
    intro j hj
    rw [List.getElem?_reverse (by omega), e2]
  have hrep : ∀ j < 512, (List.replicate 512 '0')[511 - j]? = some '0' := by
    intro j hj
    rw [List.getElem?_replicate, if_pos (by omega)]
  refine ⟨s, e1, e2, portsOf_of s _ ?_ ?_ ?_⟩
  · intro c hc
    obtain ⟨i, hi, rfl⟩ := List.mem_iff_getElem.1 hc
    have := e3 (511 - i) (by omega)
    rw [show 511 - (511 - i) = i by omega, List.getElem?_eq_getElem hi] at this
    split at this
    · exact .inr (Option.some.inj this)
    · have h2 := hrep (511 - i) (by omega)
      rw [show 511 - (511 - i) = i by omega] at h2
      rw [h2] at this
      exact .inl (Option.some.inj this)
  · intro p
    unfold Lists pdPorts
    rw [Finset.mem_filter, Finset.mem_range]
    by_cases hp : p < 512
    · rw [hrev p hp, e3 p hp, hrep p hp]
      simp only [Nat.sub_self, Nat.zero_le, true_and, pdBit]
      by_cases hb : ((input.getD (p / 8) 0).toBitVec.getLsbD (p % 8)) = true
      · rw [if_pos hb]; simp [hp]; simpa using hb
      · rw [if_neg hb]
        constructor
        · intro h; simp at h
        · intro h; exact absurd h.2 hb
    · rw [List.getElem?_eq_none (by simp; omega)]
      simp [hp]
  · intro p hp
    exact Finset.mem_range.1 (Finset.mem_filter.1 hp).1

/-! ## Dump -/

theorem lookup_of_mem {α : Type} {l : List (Nat × α)} (hnd : (l.map Prod.fst).Nodup) {k : Nat} {v : α}
    (h : (k, v) ∈ l) : l.lookup k = some v := by
  induction l with
  | nil => simp at h
  | cons x l ih =>
    obtain ⟨a, b⟩ := x
    rw [List.map_cons, List.nodup_cons] at hnd
    rw [List.lookup_cons]
    rcases List.mem_cons.1 h with h' | h'
    · obtain ⟨rfl, rfl⟩ := Prod.mk.inj h'
      simp
    · have : k ≠ a := fun e => hnd.1 (List.mem_map.2 ⟨_, h', e⟩)
      simp [beq_eq_false_iff_ne.2 this, ih hnd.2 h']

theorem mem_of_lookup {α : Type} {l : List (Nat × α)} {k : Nat} {v : α} (h : l.lookup k = some v) :
    (k, v) ∈ l := by
  induction l with
  | nil => simp at h
  | cons x l ih =>
    obtain ⟨a, b⟩ := x
    rw [List.lookup_cons] at h
    by_cases hk : k = a
    · subst hk; simp at h; simp [h]
    · simp only [beq_eq_false_iff_ne.2 hk] at h
      exact List.mem_cons_of_mem _ (ih h)

theorem uint_small {n : Nat} (h : n < 2 ^ 32) : uint n = n := Nat.mod_eq_of_lt h

theorem dictGet_map {α β : Type} (m : UMap α) (F : α → β) (hs : ∀ k ∈ m.keys, k < 2 ^ 32) {k : Nat}
    {v : α} (h : m.find? k = some v) :
    dictGet (m.l.map fun p => (uint p.1, F p.2)) k = some (F v) := by
  have hmem := mem_of_lookup h
  have hfst : (m.l.map fun p => (uint p.1, F p.2)).map Prod.fst = m.l.map Prod.fst := by
    rw [List.map_map]
    refine List.map_congr_left fun p hp => ?_
    exact uint_small (hs p.1 (by simp [UMap.keys]; exact ⟨_, hp⟩))
  unfold dictGet
  refine lookup_of_mem ?_ ?_
  · rw [List.map_reverse, List.nodup_reverse, hfst]; exact m.nd
  · rw [List.mem_reverse, List.mem_map]
    refine ⟨(k, v), hmem, ?_⟩
    have : k < 2 ^ 32 := hs k ((UMap.mem_keys _ _).2 ⟨v, h⟩)
    rw [uint_small this]

theorem positions_spec (v : PortSet) : (positions v).Nodup ∧ ∀ q, q ∈ positions v ↔ q ∈ den v := by
  refine ⟨List.nodup_range.filter _, fun q => ?_⟩
  simp [positions, den]

/-- Identifiers have 32 bits. -/
def Wide (c : Conf) : Prop := (∀ g ∈ c.groups, g < 2 ^ 32) ∧ ∀ n ∈ c.nodes, (c.node n).rid < 2 ^ 32

variable {lim : Limits} {p : State} {c : Conf}

theorem dumpNodes_spec (i : Inv lim p c) (hn : lim.nodes ≤ 2 ^ 31) (hw : Wide c) (lag : Bool)
    (hs : List Nat) (hc : ∀ n ∈ hs, n ∈ c.nodes) :
    ∃ ls, dumpNodes (getEntries lag p) hs = some ls ∧ ls.map Prod.fst = hs ∧
      ∀ l ∈ ls, l.2.1 = (c.node l.1).rid ∧
      (l.2.2.1.Nodup ∧ ∀ q, q ∈ l.2.2.1 ↔ q ∈ (c.node l.1).ports) ∧
      (l.2.2.2.Nodup ∧ ∀ q, q ∈ l.2.2.2 ↔ q ∈ (c.node l.1).lags) := by
  induction hs with
  | nil => exact ⟨[], rfl, rfl, by simp⟩
  | cons n hs ih =>
    obtain ⟨ls, e1, e2, e3⟩ := ih fun m hm => hc m (by simp [hm])
    have hcn := hc n (by simp)
    obtain ⟨a, b, r⟩ := i.rep.node n hcn
    have hk1 : ∀ k ∈ p.l1s.keys, k < 2 ^ 32 := by
      rw [i.rep.nodes]; intro k hk; have := i.small k hk; omega
    have hk2 : ∀ k ∈ p.l2s.keys, k < 2 ^ 32 := fun k hk => by have := i.l2 k hk; omega
    have d1 : dictGet (getEntries lag p).l1 n = some (uint a.rid, uint a.l2Hdl) :=
      dictGet_map p.l1s (fun e => (uint e.rid, uint e.l2Hdl)) hk1 r.l1
    have hl2 : uint a.l2Hdl = a.l2Hdl := uint_small (hk2 _ ((UMap.mem_keys _ _).2 ⟨_, r.l2⟩))
    have d2 : dictGet (getEntries lag p).l2 a.l2Hdl
        = some (positions b.portMap, positions b.lagMap) :=
      dictGet_map p.l2s (fun e => (positions e.portMap, positions e.lagMap)) hk2 r.l2
    refine ⟨(n, uint a.rid, positions b.portMap, positions b.lagMap) :: ls, ?_, by simp [e2], ?_⟩
    · simp [dumpNodes, d1, hl2, d2, e1]
    · intro l hl
      rcases List.mem_cons.1 hl with rfl | hl
      · refine ⟨?_, ?_, ?_⟩
        · rw [r.rid]; exact uint_small (hw.2 n hcn)
        · dsimp only; rw [← r.ports]; exact positions_spec b.portMap
        · dsimp only; rw [← r.lags]; exact positions_spec b.lagMap
      · exact e3 l hl

theorem dumpGroups_spec (i : Inv lim p c) (hn : lim.nodes ≤ 2 ^ 31) (hw : Wide c) (lag : Bool) :
    ∃ gs, dumpGroups (getEntries lag p) (getEntries lag p).mgrps = some gs ∧ ShowsGroups c gs := by
  have key : ∀ l : List (Nat × MgidEntry), (∀ x ∈ l, p.mgids.find? x.1 = some x.2) →
      ∃ gs, dumpGroups (getEntries lag p) (l.map fun x => (uint x.1, x.2.l1List.map uint)) = some gs ∧
        gs.map Prod.fst = l.map Prod.fst ∧
        ∀ x ∈ gs, (x.2.map Prod.fst).Nodup ∧ (∀ n, n ∈ x.2.map Prod.fst ↔ n ∈ members c x.1) ∧
          ∀ l ∈ x.2, l.2.1 = (c.node l.1).rid ∧
            (l.2.2.1.Nodup ∧ ∀ q, q ∈ l.2.2.1 ↔ q ∈ (c.node l.1).ports) ∧
            (l.2.2.2.Nodup ∧ ∀ q, q ∈ l.2.2.2 ↔ q ∈ (c.node l.1).lags) := by
    intro l
    induction l with
    | nil => intro _; exact ⟨[], rfl, rfl, by simp⟩
    | cons x l ih =>
      intro hx
      obtain ⟨gs, e1, e2, e3⟩ := ih fun y hy => hx y (by simp [hy])
      have hf := hx x (by simp)
      have hg : x.1 ∈ c.groups := (i.rep.memGroups x.1).2 ⟨_, hf⟩
      obtain ⟨hnd, hmem⟩ := i.rep.list x.1 x.2 hf
      have hin : ∀ n ∈ x.2.l1List, n ∈ c.nodes := fun n h =>
        ((mem_members _ _ _).1 ((hmem n).1 h)).1
      have hu : x.2.l1List.map uint = x.2.l1List := by
        conv => rhs; rw [← List.map_id x.2.l1List]
        refine List.map_congr_left fun n h => ?_
        exact uint_small (by have := i.small n (hin n h); omega)
      obtain ⟨ls, f1, f2, f3⟩ := dumpNodes_spec i hn hw lag x.2.l1List hin
      refine ⟨(x.1, ls) :: gs, ?_, by simp [e2], ?_⟩
      · simp [dumpGroups, hu, f1, e1, uint_small (hw.1 x.1 hg)]
      · intro y hy
        rcases List.mem_cons.1 hy with rfl | hy
        · exact ⟨by rw [f2]; exact hnd, by rw [f2]; exact hmem, f3⟩
        · exact e3 y hy
  obtain ⟨gs, e1, e2, e3⟩ := key p.mgids.l fun x hx => lookup_of_mem p.mgids.nd (by exact hx)
  refine ⟨gs, e1, by rw [e2]; exact p.mgids.nd, fun g => ?_, e3⟩
  rw [e2, ← i.rep.groups]
  simp [UMap.keys]

theorem wide_next {cs : List Conf} (h : ∀ c ∈ cs, Wide c) (cl : Call) (r : Reply) :
    ∀ c ∈ next cs cl r, Wide c := by
  unfold next
  cases hx : context cs cl.cxt with
  | none => exact h
  | some conf =>
    cases hm : meaning cl.req with
    | none => exact h
    | some op =>
      simp only
      cases hr : reads op r with
      | none => exact h
      | some ret =>
        intro d hd
        have hconf : Wide conf := by
          unfold context at hx
          split at hx
          · exact h conf (List.mem_of_getElem? hx)
          · cases hx
        rcases List.mem_or_eq_of_mem_set hd with hd | rfl
        · exact h d hd
        have hid : ∀ x : Int32, ident x < 2 ^ 32 := fun x => x.toBitVec.isLt
        obtain ⟨w1, w2⟩ := hconf
        cases op with
        | groupCreate g =>
          have hg : g < 2 ^ 32 := by
            cases hq : cl.req <;> rw [hq] at hm <;> simp only [meaning] at hm
            case mgrpCreate g' =>
              simp only [Option.some.injEq, Op.groupCreate.injEq] at hm
              rw [← hm]; exact hid g'
            all_goals first
              | (simp at hm)
              | (rename_i lags; cases lags <;> simp only [meaning] at hm
                 · simp at hm
                 · split at hm <;> simp at hm)
          cases ret <;> try exact ⟨w1, w2⟩
          refine ⟨fun k hk => ?_, w2⟩
          simp only [effect, Finset.mem_insert] at hk
          rcases hk with rfl | hk
          · exact hg
          · exact w1 k hk
        | groupDestroy g =>
          cases ret <;> try exact ⟨w1, w2⟩
          refine ⟨fun k hk => w1 k (Finset.mem_of_mem_erase hk), fun n hnn => ?_⟩
          simp only [effect]
          split <;> exact w2 n hnn
        | nodeCreate rid ps ls =>
          have hg : rid < 2 ^ 32 := by
            cases hq : cl.req <;> rw [hq] at hm <;> simp only [meaning] at hm
            case nodeCreate rid' ports' lags' =>
              cases lags' with
              | none =>
                simp only [meaning] at hm
                cases hp : portsOf ports' <;> rw [hp] at hm <;> simp at hm
                rw [← hm.1]; exact hid rid'
              | some l =>
                simp only [meaning] at hm
                split at hm
                · simp at hm
                  rw [← hm.1]; exact hid rid'
                · simp at hm
            all_goals first
              | (simp at hm)
              | (rename_i lags; cases lags <;> simp only [meaning] at hm
                 · simp at hm
                 · split at hm <;> simp at hm)
          cases ret <;> try exact ⟨w1, w2⟩
          rename_i k
          refine ⟨w1, fun n hnn => ?_⟩
          simp only [effect, upd, Finset.mem_insert] at hnn ⊢
          by_cases hk : n = k
          · simpa [hk] using hg
          · rw [if_neg hk]; exact w2 n (by simpa [hk] using hnn)
        | associate g k =>
          cases ret <;> try exact ⟨w1, w2⟩
          refine ⟨w1, fun n hnn => ?_⟩
          simp only [effect, upd]
          by_cases hk : n = k
          · subst hk; rw [if_pos rfl]; exact w2 n hnn
          · rw [if_neg hk]; exact w2 n hnn
        | dissociate g k =>
          cases ret <;> try exact ⟨w1, w2⟩
          refine ⟨w1, fun n hnn => ?_⟩
          simp only [effect, upd]
          by_cases hk : n = k
          · subst hk; rw [if_pos rfl]; exact w2 n hnn
          · rw [if_neg hk]; exact w2 n hnn
        | nodeDestroy k =>
          cases ret <;> try exact ⟨w1, w2⟩
          refine ⟨w1, fun n hnn => ?_⟩
          simp only [effect, upd, Finset.mem_erase] at hnn ⊢
          rw [if_neg hnn.1]; exact w2 n hnn.2
        | nodeUpdate k ps ls =>
          cases ret <;> try exact ⟨w1, w2⟩
          refine ⟨w1, fun n hnn => ?_⟩
          simp only [effect, upd]
          by_cases hk : n = k
          · subst hk; rw [if_pos rfl]; exact w2 n hnn
          · rw [if_neg hk]; exact w2 n hnn
        | reset b =>
          cases b <;> cases ret <;> first | exact ⟨w1, w2⟩ | (constructor <;> simp [effect])
        | _ => cases ret <;> exact ⟨w1, w2⟩

theorem wide_after {cs : List Conf} (h : ∀ c ∈ cs, Wide c) (t : List (Call × Reply)) :
    ∀ c ∈ afterAll cs t, Wide c := by
  induction t generalizing cs with
  | nil => exact h
  | cons x t ih => exact ih (wide_next h x.1 x.2)

/-! ## Long strings -/

theorem setOf_long (s : List Char) (hb : ∀ c ∈ s, c = '0' ∨ c = '1') :
    ∃ w, setOf s = some w ∧ ∀ p, p ∈ den w ↔ p < 512 ∧ Lists s (p + (s.length - 512)) := by
  obtain ⟨w, h1, h2⟩ := copyFrom_some (s.take 512) 0
    (fun c hc => hb c (List.mem_of_mem_take hc)) (by simp)
  refine ⟨w, h1, fun p => ?_⟩
  rw [mem_den, h2, Lists, List.reverse_take, List.getElem?_drop, Nat.add_comm p]
  simp only [BitVec.ofNat_eq_ofNat, BitVec.getLsbD_zero, Bool.false_or, decide_eq_true_eq]
  constructor
  · intro h
    refine ⟨?_, h⟩
    have := (List.getElem?_eq_some_iff.1 h).1
    simp at this
    omega
  · exact fun h => h.2

/-! ## Refused calls -/

theorem exec_err {p : State} {op : Op PortSet} {e : Err} {p' : State}
    (h : exec p op = some (.err e, p')) : p' = p := by
  cases op with
  | groupCreate g =>
    simp only [exec, mgrpCreate] at h
    split at h <;> simp [Code.ret] at h
    exact h.2.symm
  | groupDestroy g => simp [exec, mgrpDestroy, Code.ret] at h
  | nodeCreate rid ports lags =>
    have key : ∀ mk, (nodeCreateWith p rid mk).map (fun r => (createRet r.1 r.2.1, r.2.2))
        = some (.err e, p') → p' = p := by
      intro mk h
      rw [Option.map_eq_some_iff] at h
      obtain ⟨⟨cd, n, p1⟩, e1, e2⟩ := h
      simp only [Prod.mk.injEq] at e2
      obtain ⟨e2, rfl⟩ := e2
      unfold nodeCreateWith at e1
      simp only [Option.bind_eq_bind, Option.pure_def] at e1
      split at e1
      · simp at e1; exact e1.2.2.symm
      · split at e1
        · simp at e1; exact e1.2.2.symm
        · simp only [Option.bind_eq_some_iff, Option.some.injEq, Prod.mk.injEq] at e1
          obtain ⟨_, _, _, _, e1, _⟩ := e1
          rw [← e1] at e2
          simp [createRet] at e2
    cases lags with
    | none => exact key _ h
    | some l => exact key _ h
  | associate g n =>
    simp only [exec, Option.map_eq_some_iff] at h
    obtain ⟨⟨cd, p1⟩, e1, e2⟩ := h
    simp only [Prod.mk.injEq] at e2
    obtain ⟨e2, rfl⟩ := e2
    unfold nodeAssociate at e1
    simp only [Option.bind_eq_bind, Option.pure_def, Option.bind_eq_some_iff] at e1
    obtain ⟨b, _, e1⟩ := e1
    split at e1
    · simp at e1; exact e1.2.symm
    · split at e1
      · simp at e1; exact e1.2.symm
      · simp only [Option.bind_eq_some_iff] at e1
        obtain ⟨_, _, e1⟩ := e1
        split at e1
        · simp at e1; exact e1.2.symm
        · simp at e1; rw [← e1.1] at e2; simp [Code.ret] at e2
  | dissociate g n =>
    simp only [exec, Option.map_eq_some_iff] at h
    obtain ⟨⟨cd, p1⟩, e1, e2⟩ := h
    simp only [Prod.mk.injEq] at e2
    obtain ⟨e2, rfl⟩ := e2
    unfold nodeDissociate at e1
    simp only [Option.bind_eq_bind, Option.pure_def, Option.bind_eq_some_iff] at e1
    obtain ⟨b, _, e1⟩ := e1
    split at e1
    · simp at e1; exact e1.2.symm
    · split at e1
      · simp at e1; exact e1.2.symm
      · simp only [Option.bind_eq_some_iff] at e1
        obtain ⟨_, _, e1⟩ := e1
        split at e1
        · simp at e1; exact e1.2.symm
        · simp at e1; rw [← e1.1] at e2; simp [Code.ret] at e2
  | nodeDestroy n =>
    simp only [exec, Option.map_eq_some_iff] at h
    obtain ⟨⟨cd, p1⟩, e1, e2⟩ := h
    simp only [Prod.mk.injEq] at e2
    obtain ⟨e2, rfl⟩ := e2
    unfold nodeDestroy at e1
    simp only [Option.bind_eq_bind, Option.pure_def, Option.bind_eq_some_iff] at e1
    obtain ⟨b, _, e1⟩ := e1
    split at e1
    · simp at e1; exact e1.2.symm
    · simp only [Option.bind_eq_some_iff] at e1
      obtain ⟨_, _, _, _, _, _, e1⟩ := e1
      split at e1
      · simp at e1
      · simp only [Option.bind_eq_some_iff] at e1
        obtain ⟨_, _, e1⟩ := e1
        split at e1
        · simp at e1
        · simp only [Option.bind_some, Option.some.injEq, Prod.mk.injEq] at e1
          rw [← e1.1] at e2; simp [Code.ret] at e2
  | nodeUpdate n ports lags =>
    have key : ∀ f, (nodeUpdateWith p n f).map (fun r => (r.1.ret, r.2))
        = some (.err e, p') → p' = p := by
      intro f h
      rw [Option.map_eq_some_iff] at h
      obtain ⟨⟨cd, p1⟩, e1, e2⟩ := h
      simp only [Prod.mk.injEq] at e2
      obtain ⟨e2, rfl⟩ := e2
      unfold nodeUpdateWith at e1
      simp only [Option.bind_eq_bind, Option.pure_def, Option.bind_eq_some_iff] at e1
      obtain ⟨b, _, e1⟩ := e1
      split at e1
      · simp at e1; exact e1.2.symm
      · simp only [Option.bind_eq_some_iff] at e1
        obtain ⟨_, _, _, _, e1⟩ := e1
        simp only [Option.some.injEq, Prod.mk.injEq] at e1
        rw [← e1.1] at e2; simp [Code.ret] at e2
    cases lags with
    | none => exact key _ h
    | some l => exact key _ h
  | setLag i ports =>
    simp only [exec, setLagMembership] at h
    split at h <;> simp [Code.ret, Code.retLag] at h
    exact h.2.symm
  | reset b => cases b <;> simp [exec] at h
  | replicate g => simp [exec] at h
  | replicateLag g => simp [exec] at h

theorem serve_fail {p : State} {req : Req} {k : Nat} {p' : State}
    (h : serve p req = some (.fail k, p')) : p' = p := by
  rw [serve_eq, Option.map_eq_some_iff] at h
  obtain ⟨⟨r, q⟩, h1, h2⟩ := h
  simp only [Prod.mk.injEq] at h2
  obtain ⟨h2, rfl⟩ := h2
  rw [Option.bind_eq_some_iff] at h1
  obtain ⟨op, _, h1⟩ := h1
  cases r with
  | err e => exact exec_err h1
  | ok => cases req <;> simp [wire] at h2
  | node n => cases req <;> simp [wire] at h2
  | copies l => cases req <;> simp [wire] at h2

end Bm.McRt
