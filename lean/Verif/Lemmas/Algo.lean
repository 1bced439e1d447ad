import Verif.Spec.Algo
import Verif.Props.Crc
import Verif.Props.Hash
import Verif.Props.Cksum
import Verif.Lemmas.Save

/-!
# Algorithms of calculations: lemmas
-/

namespace Bm.Algo

open Bm.Algo.Spec Bm.Save

/-- The state of a raw calculation which computes what the calculation has to compute. -/
inductive Rel : Raw → Calc → Prop
  | xxh64 {old} : Rel .xxh64 ⟨.xxh64, .none, old⟩
  | crc16 {old} : Rel .crc16 ⟨.crc 16 0x8005 0 0 true true, .none, old⟩
  | crc32 {old} : Rel .crc32 ⟨.crc 32 0x04c11db7 0xffffffff 0xffffffff true true, .none, old⟩
  | crcCCITT {old} : Rel .crcCCITT ⟨.crc 16 0x1021 0xffff 0 false false, .none, old⟩
  | cksum16 {old} : Rel .cksum16 ⟨.checksum, .none, old⟩
  | csum16 {old} : Rel .csum16 ⟨.checksum, .none, old⟩
  | identity {old} : Rel .identity ⟨.identity, .none, old⟩
  | xor16 {old} : Rel .xor16 ⟨.xor 2, .none, old⟩
  | xor32 {old} : Rel .xor32 ⟨.xor 4, .none, old⟩
  | toeplitz {old key} : Hash.Spec.KeyOk key → Rel (.toeplitz (Hash.keyWords key)) ⟨.toeplitz key, .key, old⟩
  | roundRobin {old idx} : idx = BitVec.ofNat 64 old.length → Rel (.roundRobin idx) ⟨.counter, .none, old⟩
  | rrc {old s} : s = old.foldl (fun s y => (Hash.Rrc.call s y).2) {} → Rel (.rrc s) ⟨.consistent, .none, old⟩
  | custom8 {old c} : Rel (.custom8 (Crc.Obj.new c))
      ⟨.crc 8 c.polynomial c.initialRemainder c.finalXor c.dataReflected c.remainderReflected, .none, old⟩
  | custom16 {old c} : Rel (.custom16 (Crc.Obj.new c))
      ⟨.crc 16 c.polynomial c.initialRemainder c.finalXor c.dataReflected c.remainderReflected, .crc16, old⟩
  | custom32 {old c} : Rel (.custom32 (Crc.Obj.new c))
      ⟨.crc 32 c.polynomial c.initialRemainder c.finalXor c.dataReflected c.remainderReflected, .crc32, old⟩
  | custom64 {old c} : Rel (.custom64 (Crc.Obj.new c))
      ⟨.crc 64 c.polynomial c.initialRemainder c.finalXor c.dataReflected c.remainderReflected, .none, old⟩

theorem toNat_setWidth {w : Nat} (hw : w ≤ 64) (r : BitVec w) : (r.setWidth 64).toNat = r.toNat := by
  rw [BitVec.toNat_setWidth, Nat.mod_eq_of_lt]
  exact Nat.lt_of_lt_of_le r.isLt (Nat.pow_le_pow_right (by omega) hw)

theorem crc_val {w : Nat} (h8 : 8 ≤ w) (hw : w ≤ 64) (xx : Bytes → BitVec 64) (c : Crc.Config w) (old : List Bytes)
    (buf : Bytes) : ∃ r, Crc.custom (Crc.Obj.new c).config (Crc.Obj.new c).table buf = some r ∧
      Val xx (.crc w c.polynomial c.initialRemainder c.finalXor c.dataReflected c.remainderReflected) old buf (r.setWidth 64) := by
  obtain ⟨r, h1, h2⟩ := Crc.C36_custom h8 c buf
  exact ⟨r, h1, r, h2, toNat_setWidth hw r⟩

theorem checksum_lt (buf : Bytes) : Cksum.Spec.checksum buf < 2 ^ 64 := by
  unfold Cksum.Spec.checksum; omega

theorem output_ok (xx : Bytes → BitVec 64) {r : Raw} {c : Calc} (h : Rel r c) (buf : Bytes) :
    ∃ v r', r.output xx buf = some (v, r') ∧ Rel r' { c with old := c.old ++ [buf] } ∧ Val xx c.alg c.old buf v := by
  cases h with
  | xxh64 => exact ⟨_, _, rfl, .xxh64, rfl⟩
  | crc16 =>
    obtain ⟨r, h1, h2⟩ := Crc.C36_crc16 buf
    exact ⟨r.setWidth 64, _, by simp only [Raw.output, h1]; rfl, .crc16, r, h2, toNat_setWidth (by decide) r⟩
  | crc32 =>
    obtain ⟨r, h1, h2⟩ := Crc.C36_crc32 buf
    exact ⟨r.setWidth 64, _, by simp only [Raw.output, h1]; rfl, .crc32, r, h2, toNat_setWidth (by decide) r⟩
  | crcCCITT =>
    obtain ⟨r, h1, h2⟩ := Crc.C36_crcCCITT buf
    exact ⟨r.setWidth 64, _, by simp only [Raw.output, h1]; rfl, .crcCCITT, r, h2, toNat_setWidth (by decide) r⟩
  | cksum16 =>
    refine ⟨_, _, rfl, .cksum16, ?_⟩
    show (BitVec.ofNat 64 _).toNat = _
    rw [Cksum.C35_checksum, BitVec.toNat_ofNat, Nat.mod_eq_of_lt (checksum_lt buf)]
  | csum16 =>
    refine ⟨_, _, rfl, .csum16, ?_⟩
    show (BitVec.ofNat 64 _).toNat = _
    rw [Cksum.C35_checksum, BitVec.toNat_ofNat, Nat.mod_eq_of_lt (checksum_lt buf)]
  | identity => exact ⟨_, _, rfl, .identity, Hash.C50_identity buf⟩
  | xor16 =>
    obtain ⟨r, h1, h2⟩ := Hash.C50_xor 2 (by decide) buf
    exact ⟨r.setWidth 64, _, by simp only [Raw.output, h1]; rfl, .xor16, r, h2, toNat_setWidth (by decide) r⟩
  | xor32 =>
    obtain ⟨r, h1, h2⟩ := Hash.C50_xor 4 (by decide) buf
    exact ⟨r.setWidth 64, _, by simp only [Raw.output, h1]; rfl, .xor32, r, h2, toNat_setWidth (by decide) r⟩
  | @toeplitz _ key hk =>
    obtain ⟨r, h1, h2⟩ := Hash.C43_toeplitz key buf hk
    exact ⟨r.setWidth 64, _, by simp only [Raw.output, h1]; rfl, .toeplitz hk, r, h2, toNat_setWidth (by decide) r⟩
  | @roundRobin old idx hi =>
    refine ⟨_, _, rfl, .roundRobin ?_, hi⟩
    rw [hi]
    simp only [Hash.roundRobin, List.length_append, List.length_cons, List.length_nil, Nat.zero_add]
    apply BitVec.eq_of_toNat_eq
    simp [BitVec.toNat_add]
  | @rrc old s hs =>
    refine ⟨_, _, rfl, .rrc ?_, Hash.C51_consistent old buf s hs⟩
    rw [List.foldl_append, ← hs]
    rfl
  | @custom8 _ c =>
    obtain ⟨r, h1, h2⟩ := crc_val (by decide) (by decide) xx c _ buf
    exact ⟨_, _, by simp only [Raw.output, h1]; rfl, .custom8, h2⟩
  | @custom16 _ c =>
    obtain ⟨r, h1, h2⟩ := crc_val (by decide) (by decide) xx c _ buf
    exact ⟨_, _, by simp only [Raw.output, h1]; rfl, .custom16, h2⟩
  | @custom32 _ c =>
    obtain ⟨r, h1, h2⟩ := crc_val (by decide) (by decide) xx c _ buf
    exact ⟨_, _, by simp only [Raw.output, h1]; rfl, .custom32, h2⟩
  | @custom64 _ c =>
    obtain ⟨r, h1, h2⟩ := crc_val (by decide) (by decide) xx c _ buf
    exact ⟨_, _, by simp only [Raw.output, h1]; rfl, .custom64, h2⟩

theorem mem_of_lookup {α : Type} {l : List (Name × α)} {a : Name} {b : α} (h : l.lookup a = some b) : (a, b) ∈ l := by
  induction l with
  | nil => cases h
  | cons p l ih =>
    obtain ⟨x, y⟩ := p
    rw [List.lookup_cons] at h
    by_cases e : a = x
    · subst e; simp at h; subst h; exact .head _
    · rw [beq_eq_false_iff_ne.2 e] at h
      exact .tail _ (ih h)

theorem lookup_of_mem {α : Type} {l : List (Name × α)} {a : Name} (h : a ∈ l.map Prod.fst) : ∃ b, l.lookup a = some b := by
  induction l with
  | nil => cases h
  | cons p l ih =>
    obtain ⟨x, y⟩ := p
    rw [List.lookup_cons]
    by_cases e : a = x
    · subst e; exact ⟨y, by simp⟩
    · rw [beq_eq_false_iff_ne.2 e]
      refine ih ?_
      simp only [List.map_cons, List.mem_cons] at h
      exact h.resolve_left e

theorem key0 : Hash.newKey = Hash.keyWords [0, 0, 0, 0] := rfl

theorem builtIn_rel : ∀ e ∈ builtIn, ∃ r, getCopy e.1 = some r ∧ Rel r ⟨e.2.1, e.2.2, []⟩ := by
  simp only [builtIn, List.forall_mem_cons]
  exact ⟨⟨_, rfl, .xxh64⟩, ⟨_, rfl, .crc16⟩, ⟨_, rfl, .crc32⟩, ⟨_, rfl, .crcCCITT⟩, ⟨_, rfl, .cksum16⟩, ⟨_, rfl, .csum16⟩,
    ⟨_, rfl, .toeplitz (by decide)⟩, ⟨_, rfl, .identity⟩, ⟨_, rfl, .roundRobin rfl⟩, ⟨_, rfl, .rrc rfl⟩, ⟨_, rfl, .xor16⟩,
    ⟨_, rfl, .xor32⟩, ⟨_, rfl, .custom8 (c := Crc.init8)⟩, ⟨_, rfl, .custom16 (c := Crc.init16)⟩,
    ⟨_, rfl, .custom32 (c := Crc.init32)⟩, ⟨_, rfl, .custom64 (c := Crc.init64)⟩, fun _ h => (List.not_mem_nil h).elim⟩

/-! ## Sessions -/

/-- The switch has the calculations of the program, in the state they must have. -/
def Inv (s : Sys) (st : St) : Prop := ∀ k n,
  (st k n = none → s.find k n = none) ∧ (∀ c, st k n = some c → ∃ r, s.find k n = some (some r) ∧ Rel r c)

theorem find_put (s : Sys) (k : Nat) (n : Name) (r : Option Raw) (h : s.find k n ≠ none) (k' : Nat) (n' : Name) :
    (s.put k n r).find k' n' = if k' = k ∧ n' = n then some r else s.find k' n' := by
  unfold Sys.put Sys.find
  rw [List.getElem?_modify]
  by_cases hk : k = k'
  · subst hk
    cases hs : s[k]? with
    | none => simp [Sys.find, hs] at h
    | some m =>
      simp only [if_true, true_and]
      rfl
  · rw [if_neg (fun x => hk x.1.symm)]
    cases s[k']? <;> simp [hk]

theorem inv_put {s : Sys} {st : St} (h : Inv s st) {k : Nat} {n : Name} {r : Raw} {c : Calc} (hs : s.find k n ≠ none)
    (hr : Rel r c) : Inv (s.put k n (some r)) (upd st k n c) := by
  intro k' n'
  rw [find_put s k n _ hs]
  unfold upd
  by_cases e : k' = k ∧ n' = n
  · simp only [if_pos e]
    refine ⟨fun x => (by cases x), fun c' hc => ?_⟩
    cases hc
    exact ⟨r, rfl, hr⟩
  · simp only [if_neg e]
    exact h k' n'

theorem updateKey_eq (k key : Bytes) : Hash.updateKey (Hash.keyWords k) key =
    if Hash.Spec.KeyOk key then (true, Hash.keyWords key) else (false, Hash.keyWords k) := by
  unfold Hash.updateKey
  by_cases h : Hash.Spec.KeyOk key
  · rw [if_pos h, if_neg]
    obtain ⟨h1, h2⟩ := h
    omega
  · rw [if_neg h, if_pos]
    unfold Hash.Spec.KeyOk at h
    omega

theorem step_ok (xx : Bytes → BitVec 64) {s : Sys} {st : St} (h : Inv s st) {q : Req} (hq : Req.Known st q) :
    ∃ s' r, s.step xx q = some (s', r) ∧ Answer xx st q r ∧ Inv s' (after st q) := by
  cases q with
  | compute k n buf =>
    cases hc : st k n with
    | none => exact absurd hc hq
    | some c =>
      obtain ⟨r, hf, hr⟩ := (h k n).2 c hc
      obtain ⟨v, r', ho, hr', hv⟩ := output_ok xx hr buf
      refine ⟨s.put k n (some r'), .value v, ?_, ⟨c, v, hc, rfl, hv⟩, ?_⟩
      · simp only [Sys.step, hf, ho]; rfl
      · simp only [after, hc]
        exact inv_put h (by rw [hf]; exact fun x => by cases x) hr'
  | crc16 k n p i x ri ro =>
    cases hc : st k n with
    | none => exact absurd hc hq
    | some c =>
      obtain ⟨r, hf, hr⟩ := (h k n).2 c hc
      have hne : s.find k n ≠ none := by rw [hf]; exact fun x => by cases x
      simp only [Sys.step, Sys.setCrc, hf, after, hc, Answer]
      cases hr with
      | custom16 =>
        refine ⟨_, _, rfl, rfl, ?_⟩
        rw [if_pos rfl]
        exact inv_put h hne (.custom16 (c := ⟨_, _, _, _, _⟩))
      | _ => exact ⟨_, _, rfl, rfl, h⟩
  | crc32 k n p i x ri ro =>
    cases hc : st k n with
    | none => exact absurd hc hq
    | some c =>
      obtain ⟨r, hf, hr⟩ := (h k n).2 c hc
      have hne : s.find k n ≠ none := by rw [hf]; exact fun x => by cases x
      simp only [Sys.step, Sys.setCrc, hf, after, hc, Answer]
      cases hr with
      | custom32 =>
        refine ⟨_, _, rfl, rfl, ?_⟩
        rw [if_pos rfl]
        exact inv_put h hne (.custom32 (c := ⟨_, _, _, _, _⟩))
      | _ => exact ⟨_, _, rfl, rfl, h⟩
  | key k n key =>
    cases hc : st k n with
    | none => exact absurd hc hq
    | some c =>
      obtain ⟨r, hf, hr⟩ := (h k n).2 c hc
      have hne : s.find k n ≠ none := by rw [hf]; exact fun x => by cases x
      simp only [Sys.step, Sys.setKey, hf, after, hc, Answer]
      cases hr with
      | @toeplitz _ key0 hk =>
        simp only [updateKey_eq]
        by_cases hkey : Hash.Spec.KeyOk key
        · refine ⟨s.put k n (some (.toeplitz (Hash.keyWords key))), .done, by rw [if_pos hkey], by simp [hkey], ?_⟩
          simp only [hkey, and_self, if_true]
          exact inv_put h hne (.toeplitz hkey)
        · refine ⟨s, .code 3, by rw [if_neg hkey], by simp [hkey], ?_⟩
          simp only [hkey, and_false, if_false]
          exact h
      | _ => exact ⟨_, _, rfl, rfl, h⟩

theorem after_none (st : St) (q : Req) (k : Nat) (n : Name) : after st q k n = none ↔ st k n = none := by
  have key : ∀ k' n' c c', st k' n' = some c → (upd st k' n' c' k n = none ↔ st k n = none) := by
    intro k' n' c c' hc
    unfold upd
    by_cases e : k = k' ∧ n = n'
    · rw [if_pos e, e.1, e.2, hc]
      simp
    · rw [if_neg e]
  cases q with
  | compute k' n' buf =>
    cases hc : st k' n' with
    | none => simp only [after, hc]
    | some c => simp only [after, hc]; exact key _ _ _ _ hc
  | crc16 k' n' p i x ri ro =>
    cases hc : st k' n' with
    | none => simp only [after, hc]
    | some c =>
      simp only [after, hc]
      by_cases hk : c.kind = .crc16
      · rw [if_pos hk]; exact key _ _ _ _ hc
      · rw [if_neg hk]
  | crc32 k' n' p i x ri ro =>
    cases hc : st k' n' with
    | none => simp only [after, hc]
    | some c =>
      simp only [after, hc]
      by_cases hk : c.kind = .crc32
      · rw [if_pos hk]; exact key _ _ _ _ hc
      · rw [if_neg hk]
  | key k' n' kk =>
    cases hc : st k' n' with
    | none => simp only [after, hc]
    | some c =>
      simp only [after, hc]
      by_cases hk : c.kind = .key ∧ Hash.Spec.KeyOk kk
      · rw [if_pos hk]; exact key _ _ _ _ hc
      · rw [if_neg hk]

theorem known_after {st : St} {p q : Req} (h : Req.Known st q) : Req.Known (after st p) q := by
  cases q <;> exact fun x => h ((after_none _ _ _ _).1 x)

theorem run_ok (xx : Bytes → BitVec 64) : ∀ (qs : List Req) {s : Sys} {st : St}, Inv s st → Possible st qs →
    ∃ s' rs, s.run xx qs = some (s', rs) ∧ Session xx st qs rs
  | [], s, st, _, _ => ⟨s, [], rfl, trivial⟩
  | q :: qs, s, st, h, hq => by
    obtain ⟨s1, r, h1, h2, h3⟩ := step_ok xx h (hq q (.head _))
    obtain ⟨s2, rs, h4, h5⟩ := run_ok xx qs h3 (fun q' hq' => known_after (hq q' (.tail _ hq')))
    exact ⟨s2, r :: rs, by simp only [Sys.run, h1, Option.bind_eq_bind, Option.bind_some, h4]; rfl, h2, h5⟩

/-! ## Loading -/

theorem checkHash_builtIn {a : Name} {r : Raw} (h : getCopy a = some r) : checkHash a = .ok r := by
  simp only [checkHash, h]

theorem loadFrom_ok : ∀ (cfg : List (Name × Name)) (m : Calcs), (cfg.map Prod.fst).Nodup →
    (∀ p ∈ cfg, m p.1 = none ∧ p.2 ∈ builtIn.map Prod.fst) →
    ∃ m', loadFrom m cfg = .ok m' ∧ ∀ n, m' n = match cfg.lookup n with | some a => some (getCopy a) | none => m n
  | [], m, _, _ => ⟨m, rfl, fun _ => rfl⟩
  | (x, a) :: cfg, m, hn, hb => by
    rw [List.map_cons, List.nodup_cons] at hn
    obtain ⟨hx, ha⟩ := hb _ (.head _)
    obtain ⟨p, hp⟩ := lookup_of_mem ha
    obtain ⟨r, hr, _⟩ := builtIn_rel _ (mem_of_lookup hp)
    obtain ⟨m', h1, h2⟩ := loadFrom_ok cfg (m.set x (getCopy a)) hn.2 (by
      intro e he
      refine ⟨?_, (hb e (.tail _ he)).2⟩
      unfold Calcs.set
      rw [if_neg, (hb e (.tail _ he)).1]
      intro ex
      have hm : e.1 ∈ cfg.map Prod.fst := List.mem_map_of_mem he
      rw [ex] at hm
      exact hn.1 hm)
    refine ⟨m', ?_, fun n => ?_⟩
    · rw [loadFrom, checkHash_builtIn hr]
      simp only at hx
      simp only [hx, Option.isSome_none, Bool.false_eq_true, if_false, h1]
    · rw [h2, List.lookup_cons]
      by_cases e : n = x
      · subst e
        have : cfg.lookup n = none := by
          cases hl : cfg.lookup n with
          | none => rfl
          | some b => exact absurd (List.mem_map_of_mem (mem_of_lookup hl)) hn.1
        simp [this, Calcs.set]
      · rw [beq_eq_false_iff_ne.2 e]
        cases cfg.lookup n with
        | none => simp [Calcs.set, e]
        | some b => rfl

theorem load_ok : ∀ (cfgs : List (List (Name × Name))), (∀ cfg ∈ cfgs, (cfg.map Prod.fst).Nodup) →
    (∀ cfg ∈ cfgs, ∀ p ∈ cfg, p.2 ∈ builtIn.map Prod.fst) →
    ∃ s : Sys, cfgs.mapM load = .ok s ∧ Inv s (Spec.init cfgs)
  | [], _, _ => ⟨[], rfl, fun k n => ⟨fun _ => rfl, fun c h => by simp [Spec.init] at h⟩⟩
  | cfg :: cfgs, hn, hb => by
    obtain ⟨s, hs, hi⟩ := load_ok cfgs (fun c h => hn c (.tail _ h)) (fun c h => hb c (.tail _ h))
    obtain ⟨m, hm, he⟩ := loadFrom_ok cfg (fun _ => none) (hn _ (.head _)) (fun p hp => ⟨rfl, hb _ (.head _) p hp⟩)
    refine ⟨m :: s, by rw [List.mapM_cons, load, hm, hs]; rfl, ?_⟩
    intro k n
    cases k with
    | succ k => exact hi k n
    | zero =>
      have e1 : Sys.find (m :: s) 0 n = m n := rfl
      have e2 : Spec.init (cfg :: cfgs) 0 n =
          (cfg.lookup n).bind fun a => (builtIn.lookup a).map fun p => ⟨p.1, p.2, []⟩ := rfl
      rw [e1, e2, he]
      cases hl : cfg.lookup n with
      | none => exact ⟨fun _ => rfl, fun c h => by cases h⟩
      | some a =>
        obtain ⟨p, hp⟩ := lookup_of_mem (hb _ (.head _) _ (mem_of_lookup hl))
        obtain ⟨r, hr, hrel⟩ := builtIn_rel _ (mem_of_lookup hp)
        simp only [Option.bind_some, hp, Option.map_some, hr]
        refine ⟨fun h => (by cases h), fun c h => ?_⟩
        cases h
        exact ⟨r, rfl, hrel⟩

/-! ## Descriptions of CRCs -/

theorem num_val16 (ds : List Nat) : num ds = val16 0 ds := by
  unfold num val16
  congr 1
  funext n d
  rw [Nat.mul_comm]

theorem hexDigits_num {ds : List Nat} (h : Digits ds) :
    ∃ bs, hexDigits (ds.map hexDigit) = some bs ∧ importBytes bs = num ds := by
  rw [num_val16]
  exact hexDigits_digits ds h.1 h.2

theorem digits_ne {ds : List Nat} (h : ∀ d ∈ ds, d < 16) : ∀ c ∈ ds.map hexDigit, c ≠ 'x' ∧ c ≠ '-' ∧ c ≠ '_' := by
  intro c hc
  obtain ⟨d, hd, rfl⟩ := List.mem_map.1 hc
  exact hexDigit_ne (h d hd)

theorem hexToInt_hex {w : Nat} {ds : List Nat} (h : Digits ds) (hw : num ds < 2 ^ w) :
    hexToInt w (hex ds) = .ok (BitVec.ofNat w (num ds)) := by
  obtain ⟨bs, h1, h2⟩ := hexDigits_num h
  have e : dataOfHex (hex ds) = some (num ds : Int) := by
    show (do return (importBytes (← hexDigits (ds.map hexDigit)) : Int)) = _
    rw [h1, ← h2]; rfl
  have hne : hex ds ≠ [] := by simp [hex]
  rw [hexToInt, if_neg hne, e]
  simp only
  rw [if_pos ⟨Int.natCast_nonneg _, by exact_mod_cast hw⟩, Int.toNat_natCast]

theorem hexToInt_plain {w : Nat} {ds : List Nat} (h : Digits ds) (hw : num ds < 2 ^ w) :
    hexToInt w (ds.map hexDigit) = .ok (BitVec.ofNat w (num ds)) := by
  obtain ⟨bs, h1, h2⟩ := hexDigits_num h
  have hd := digits_ne h.2
  have hne : ds.map hexDigit ≠ [] := by simp [h.1]
  have e : dataOfHex (ds.map hexDigit) = some (num ds : Int) := by
    rw [← h2]
    cases hl : ds.map hexDigit with
    | nil => exact absurd hl hne
    | cons c cs =>
      rw [hl] at hd h1
      have hs : skip0x (c :: cs) = c :: cs := by
        cases cs with
        | nil => unfold skip0x; split <;> simp_all
        | cons c' cs =>
          have hx := (hd c' (by simp)).1
          unfold skip0x
          split
          · rename_i heq; simp only [List.cons.injEq] at heq; exact absurd heq.2.1 hx
          · rfl
      have hm := (hd c (by simp)).2.1
      unfold dataOfHex
      split
      · rename_i heq; simp only [List.cons.injEq] at heq; exact absurd heq.1 hm
      · rw [hs, h1]; rfl
  rw [hexToInt, if_neg hne, e]
  simp only
  rw [if_pos ⟨Int.natCast_nonneg _, by exact_mod_cast hw⟩, Int.toNat_natCast]

theorem split_plain {a : Name} (h : '_' ∉ a) : split a = [a] := by
  induction a with
  | nil => rfl
  | cons c a ih =>
    simp only [List.mem_cons, not_or] at h
    rw [split, if_neg (Ne.symm h.1), ih h.2]

theorem split_sep {a : Name} (h : '_' ∉ a) (b : Name) : split (a ++ '_' :: b) = a :: split b := by
  induction a with
  | nil => rfl
  | cons c a ih =>
    simp only [List.mem_cons, not_or] at h
    rw [List.cons_append, split, if_neg (Ne.symm h.1), ih h.2]

/-- The tokens of a property. -/
def toks : Prop' → List Name
  | .init ds => ["init".toList, hex ds]
  | .xout ds => ["xout".toList, hex ds]
  | .notRev => ["not".toList, "rev".toList]

/-- A property is remembered. -/
def add (p : Params) : Prop' → Params
  | .init ds => { p with init := hex ds }
  | .xout ds => { p with xout := hex ds }
  | .notRev => { p with rev := false }

theorem hex_plain {ds : List Nat} (h : ∀ d ∈ ds, d < 16) : '_' ∉ hex ds := by
  intro hm
  unfold hex at hm
  rcases List.mem_append.1 hm with h1 | h1
  · exact absurd h1 (by decide)
  · exact (digits_ne h _ h1).2.2 rfl

theorem text_init : "_init_".toList = '_' :: ("init".toList ++ ['_']) := by decide

theorem text_xout : "_xout_".toList = '_' :: ("xout".toList ++ ['_']) := by decide

theorem text_not : "_not_rev".toList = '_' :: ("not".toList ++ '_' :: "rev".toList) := by decide

theorem text_poly : "poly_".toList = "poly".toList ++ ['_'] := by decide

theorem init_text (ds : List Nat) : Prop'.text (.init ds) = '_' :: ("init".toList ++ '_' :: hex ds) := by
  show "_init_".toList ++ hex ds = _
  rw [text_init]
  generalize "init".toList = u
  simp

theorem xout_text (ds : List Nat) : Prop'.text (.xout ds) = '_' :: ("xout".toList ++ '_' :: hex ds) := by
  show "_xout_".toList ++ hex ds = _
  rw [text_xout]
  generalize "xout".toList = u
  simp

theorem split_step {a u v : Name} (ha : '_' ∉ a) (hu : '_' ∉ u) (r : Name) :
    split (a ++ ('_' :: (u ++ '_' :: v) ++ r)) = a :: u :: split (v ++ r) := by
  have e : a ++ ('_' :: (u ++ '_' :: v) ++ r) = a ++ '_' :: (u ++ '_' :: (v ++ r)) := by simp
  rw [e, split_sep ha, split_sep hu]

theorem split_props {w : Nat} : ∀ (l : List Prop') {a : Name}, '_' ∉ a → (∀ p ∈ l, p.Fits w) →
    split (a ++ l.flatMap Prop'.text) = a :: l.flatMap toks
  | [], a, ha, _ => by simpa using split_plain ha
  | p :: l, a, ha, hl => by
    have hp := hl p (.head _)
    have ih := fun {b : Name} (hb : '_' ∉ b) => split_props l hb (fun q hq => hl q (.tail _ hq))
    cases p with
    | init ds =>
      rw [List.flatMap_cons, init_text, split_step ha (by decide), ih (hex_plain hp.1.2)]
      rfl
    | xout ds =>
      rw [List.flatMap_cons, xout_text, split_step ha (by decide), ih (hex_plain hp.1.2)]
      rfl
    | notRev =>
      have e : Prop'.text .notRev = '_' :: ("not".toList ++ '_' :: "rev".toList) := text_not
      rw [List.flatMap_cons, e, split_step ha (by decide), ih (by decide)]
      rfl

theorem hex_ne (ds : List Nat) : hex ds ≠ [] := by simp [hex]

theorem params_props : ∀ (l : List Prop') (p : Params), params p (l.flatMap toks) = some (l.foldl add p)
  | [], p => rfl
  | .init ds :: l, p => by
    show params p ("init".toList :: hex ds :: l.flatMap toks) = _
    rw [params, if_neg (by decide), if_neg (by decide), if_pos rfl, if_neg (hex_ne ds)]
    exact params_props l _
  | .xout ds :: l, p => by
    show params p ("xout".toList :: hex ds :: l.flatMap toks) = _
    rw [params, if_neg (by decide), if_neg (by decide), if_neg (by decide), if_neg (by decide), if_pos rfl, if_neg (hex_ne ds)]
    exact params_props l _
  | .notRev :: l, p => by
    show params p ("not".toList :: "rev".toList :: l.flatMap toks) = _
    rw [params, if_neg (by decide), if_neg (by decide), if_neg (by decide), if_pos rfl, if_pos rfl]
    exact params_props l _

/-- What the parameters stand for. -/
structure Means (w : Nat) (p : Params) (poly : List Nat) (i x : Nat) (r : Bool) : Prop where
  poly : p.poly = hex (1 :: poly)
  init : hexToInt w p.init = .ok (BitVec.ofNat w i)
  xout : hexToInt w p.xout = .ok (BitVec.ofNat w x)
  rev : p.rev = r

theorem means_props {w : Nat} {poly : List Nat} : ∀ (l : List Prop') {p : Params} {i x : Nat} {r : Bool},
    Means w p poly i x r → (∀ p ∈ l, p.Fits w) →
    Means w (l.foldl add p) poly (l.foldl Prop'.init? i) (l.foldl Prop'.xout? x) (l.foldl Prop'.rev? r)
  | [], p, i, x, r, h, _ => h
  | .init ds :: l, p, i, x, r, h, hl => by
    have hf := hl _ (.head _)
    exact means_props l (p := { p with init := hex ds }) ⟨h.poly, hexToInt_hex hf.1 hf.2, h.xout, h.rev⟩
      (fun q hq => hl q (.tail _ hq))
  | .xout ds :: l, p, i, x, r, h, hl => by
    have hf := hl _ (.head _)
    exact means_props l (p := { p with xout := hex ds }) ⟨h.poly, h.init, hexToInt_hex hf.1 hf.2, h.rev⟩
      (fun q hq => hl q (.tail _ hq))
  | .notRev :: l, p, i, x, r, h, hl =>
    means_props l (p := { p with rev := false }) ⟨h.poly, h.init, h.xout, rfl⟩ (fun q hq => hl q (.tail _ hq))

theorem params_text {w : Nat} {poly : List Nat} (hp : ∀ d ∈ poly, d < 16) {l : List Prop'} (hl : ∀ p ∈ l, p.Fits w) :
    ∃ p, params {} (split (text poly l)) = some p ∧ Means w p poly (initOf l) (xoutOf l) (revOf l) := by
  have h1 : ∀ d ∈ 1 :: poly, d < 16 := by
    intro d hd
    rcases List.mem_cons.1 hd with rfl | hd
    · decide
    · exact hp d hd
  have e : text poly l = "poly".toList ++ '_' :: (hex (1 :: poly) ++ l.flatMap Prop'.text) := by
    rw [text, text_poly]
    generalize "poly".toList = u
    simp
  refine ⟨l.foldl add { poly := hex (1 :: poly) }, ?_, ?_⟩
  · rw [e, split_sep (by decide), split_props l (hex_plain h1) hl, params, if_neg (by decide), if_pos rfl, if_neg (hex_ne _)]
    exact params_props l _
  · exact means_props (w := w) (poly := poly) l (p := { poly := hex (1 :: poly) }) (i := 0) (x := 0) (r := true)
      ⟨rfl, rfl, rfl, rfl⟩ hl

theorem num_lt : ∀ {ds : List Nat}, (∀ d ∈ ds, d < 16) → num ds < 16 ^ ds.length := by
  intro ds h
  have key : ∀ (ds : List Nat) (n m : Nat), (∀ d ∈ ds, d < 16) → n < 16 ^ m →
      ds.foldl (fun n d => 16 * n + d) n < 16 ^ (m + ds.length) := by
    intro ds
    induction ds with
    | nil => intro n m _ hn; simpa using hn
    | cons d ds ih =>
      intro n m hd hn
      rw [List.foldl_cons, List.length_cons, show m + (ds.length + 1) = (m + 1) + ds.length by omega]
      refine ih _ _ (fun x hx => hd x (.tail _ hx)) ?_
      have := hd d (.head _)
      rw [Nat.pow_succ]
      omega
  have := key ds 0 0 h (by decide)
  rwa [Nat.zero_add] at this

theorem config_ok {w : Nat} {p : Params} {poly : List Nat} {i x : Nat} {r : Bool} (h : Means w p poly i x r)
    (hd : Digits poly) (hw : 4 * poly.length = w) :
    p.config w = .ok ⟨BitVec.ofNat w (num poly), BitVec.ofNat w i, BitVec.ofNat w x, r, r⟩ := by
  have hn : num poly < 2 ^ w := by
    have := num_lt hd.2
    rw [← hw, Nat.pow_mul]
    exact this
  have e : p.poly.drop 3 = poly.map hexDigit := by
    rw [h.poly]
    simp [hex]
  rw [Params.config, e, hexToInt_plain hd hn, h.init, h.xout, h.rev]
  rfl

theorem order_hex (poly : List Nat) : order (hex (1 :: poly)) = poly.length * 4 := by
  show order ('0' :: 'x' :: hexDigit 1 :: poly.map hexDigit) = _
  show (poly.map hexDigit).length * 4 = _
  rw [List.length_map]

end Bm.Algo
