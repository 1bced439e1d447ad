import Verif.Spec.PiEntry
import Verif.Lemmas.KeyBack
import Verif.Lemmas.Field

/-! # Lemmas about table entries as PI sees them (C90) -/

namespace Bm.PiEntry
open Bm.Spec Bm.PiEntry.Spec

theorem take_append {n : Nat} {a r : Bytes} (h : a.length = n) : take n (a ++ r) = some (a, r) := by
  subst h
  simp [take]

theorem getU32_nat {b : Bytes} {len : Nat} (h : b.length = 4) (h' : bytesNat b.reverse = len) :
    getU32 b = len := by
  match b, h with
  | [a, b, c, d], _ =>
    simp [bytesNat] at h'
    simp only [getU32]
    omega

theorem ofNat_eq {n : Nat} {b : UInt8} (h : n % 256 = b.toNat) : UInt8.ofNat n = b := by
  apply UInt8.toNat_inj.mp
  rw [UInt8.toNat_ofNat']
  exact h

theorem putU32_nat {b : Bytes} {len : Nat} (h : b.length = 4) (h' : bytesNat b.reverse = len) :
    putU32 len = b := by
  match b, h with
  | [a, b, c, d], _ =>
    simp [bytesNat] at h'
    have := a.toNat_lt
    have := b.toNat_lt
    have := c.toNat_lt
    have := d.toNat_lt
    simp only [putU32, List.cons.injEq, and_true]
    refine ⟨ofNat_eq ?_, ofNat_eq ?_, ofNat_eq ?_, ofNat_eq ?_⟩ <;> omega

/-- What is known of the parameter `p` that stands for the match `v` of `f`, whose bytes are `a`. -/
structure Stands (f : PiF) (v : Val) (a : Bytes) (p : MParam) : Prop where
  build : ∀ r, buildOne f (a ++ r) = some (p, r)
  emit : emitOne p = a
  ok : ParamOk (declared f) p
  meets : ∀ x, x < 2 ^ (declared f).nbits →
    (FieldMatches (fun w => w) (declared f) p x ↔ Meets f v x)
  back : ∀ keepLow p', (keepLow = false → f.type = .lpm → f.bitwidth % 8 = 0) →
    ReadsBack keepLow (declared f) p p' → p' = p

theorem key_eq {p p' : MParam} (h1 : p'.type = p.type) (h2 : p'.key = p.key)
    (h3 : p'.mask = p.mask) (h4 : p'.prefixLength = p.prefixLength) : p' = p := by
  cases p; cases p'; simp_all

theorem underMask_none {f : KeyF} (h : f.smask = none) (x : Nat) : underMask f x = x := by
  unfold underMask; rw [h]

theorem stands {f : PiF} {v : Val} {a : Bytes} (hw : f.bitwidth < 2 ^ 31)
    (he : Encodes1 f v a) (hc : Canonical f v) : ∃ p, Stands f v a p := by
  obtain ⟨ty, w⟩ := f
  simp only at hw
  unfold Encodes1 at he
  cases ty <;> cases v <;> simp only at he
  case valid.valid b =>
    subst he
    refine ⟨{ type := .valid, key := [if b then 1 else 0] }, ?_, ?_, ?_, ?_, ?_⟩
    · intro r
      cases b <;> simp [buildOne, take, validParam]
    · cases b <;> simp [emitOne]
    · simp [ParamOk, declared]
    · intro x hx
      cases b <;> simp [FieldMatches, declared, paramValue, underMask, Meets, bytesNat]
    · intro k p' _ hb
      obtain ⟨h1, h2, h3, h4, h5⟩ := hb
      refine key_eq h1 (bytesNat_inj (by rw [h2]; simp [declared]) ?_) h4 h5
      rw [h3]
      cases b <;> simp [paramValue, declared, underMask, bytesNat]
  case exact.exact x =>
    obtain ⟨hl, hn⟩ := he
    simp only [Canonical] at hc
    have hpv : paramValue (declared ⟨.exact, w⟩) { type := .exact, key := a } = x := by
      simp only [paramValue, declared, underMask, hn]
      exact Nat.mod_eq_of_lt hc
    refine ⟨{ type := .exact, key := a }, ?_, rfl, ⟨rfl, hl, trivial⟩, ?_, ?_⟩
    · intro r
      simp [buildOne, PiF.nbytes, take_append hl]
    · intro y hy
      show underMask _ y = paramValue (declared ⟨.exact, w⟩) _ ↔ _
      rw [hpv]
      exact Iff.rfl
    · intro k p' _ hb
      obtain ⟨h1, h2, h3, h4, h5⟩ := hb
      refine key_eq h1 (bytesNat_inj (by rw [h2]; exact hl.symm) ?_) h4 h5
      rw [h3, hpv]; exact hn.symm
  case lpm.lpm x len =>
    obtain ⟨a, b, rfl, ⟨hl, hn⟩, hb4, hbn⟩ := he
    obtain ⟨hx, hlen, hdiv⟩ := hc
    simp only at hx hlen hdiv
    have hpv : paramValue (declared ⟨.lpm, w⟩)
        { type := .lpm, key := a, prefixLength := (len : Int) } = x := by
      simp only [paramValue, declared, underMask, hn]
      exact Nat.mod_eq_of_lt hx
    refine ⟨{ type := .lpm, key := a, prefixLength := (len : Int) }, ?_, ?_,
      ⟨rfl, hl, ⟨by simp, by simp only [declared]; omega⟩⟩, ?_, ?_⟩
    · intro r
      have hu : u32ToInt len = (len : Int) := by
        unfold u32ToInt; rw [if_pos (by omega)]
      simp [buildOne, PiF.nbytes, List.append_assoc, take_append hl, take_append hb4,
        getU32_nat hb4 hbn, hu]
    · show a ++ putU32 ((len : Int) % 2 ^ 32).toNat = a ++ b
      have : ((len : Int) % 2 ^ 32).toNat = len := by omega
      rw [this, putU32_nat hb4 hbn]
    · intro y hy
      show PrefixAgrees _ _ (underMask _ y) (paramValue (declared ⟨.lpm, w⟩) _) ↔ _
      rw [hpv]
      exact Iff.rfl
    · intro k p' hk hb
      obtain ⟨h1, h2, h3, h4, h5⟩ := hb
      refine key_eq h1 (bytesNat_inj (by rw [h2]; exact hl.symm) ?_) h3 h4
      rw [hpv] at h5
      cases k with
      | true => simp only [if_true] at h5; rw [h5]; exact hn.symm
      | false =>
        simp only [Bool.false_eq_true, if_false] at h5
        obtain ⟨s, hs, h5⟩ := h5
        rw [h5]
        have hw8 := hk rfl rfl
        simp only at hw8
        have hs' : s = w - len := by
          rw [hs]
          show 8 * ((w + 7) / 8) - ((len : Int)).toNat = w - len
          omega
        rw [hs', Nat.div_mul_cancel hdiv]
        exact hn.symm
  case ternary.ternary x m =>
    obtain ⟨a, b, rfl, ⟨hl, hn⟩, ⟨hlm, hm⟩⟩ := he
    obtain ⟨hx, hmw, hxm⟩ := hc
    simp only at hx
    have hpv : paramValue (declared ⟨.ternary, w⟩) { type := .ternary, key := a, mask := b } = x := by
      simp only [paramValue, declared, underMask, hn]
      exact Nat.mod_eq_of_lt hx
    refine ⟨{ type := .ternary, key := a, mask := b }, ?_, rfl, ⟨rfl, hl, hlm⟩, ?_, ?_⟩
    · intro r
      simp [buildOne, PiF.nbytes, List.append_assoc, take_append hl, take_append hlm]
    · intro y hy
      show underMask _ y &&& bytesNat b = paramValue (declared ⟨.ternary, w⟩) _ &&& bytesNat b ↔ _
      rw [hpv, hm]
      exact Iff.rfl
    · intro k p' _ hb
      obtain ⟨h1, h2, h3, h4, h5⟩ := hb
      refine key_eq h1 (bytesNat_inj (by rw [h2]; exact hl.symm) ?_) h4 h5
      rw [h3, hpv]
      simp only [hm, hxm]
      exact hn.symm
  case optional.ternary x m =>
    obtain ⟨a, b, rfl, ⟨hl, hn⟩, ⟨hlm, hm⟩⟩ := he
    obtain ⟨hx, hmw, hxm⟩ := hc
    simp only at hx
    have hpv : paramValue (declared ⟨.optional, w⟩) { type := .ternary, key := a, mask := b } = x := by
      simp only [paramValue, declared, underMask, hn]
      exact Nat.mod_eq_of_lt hx
    refine ⟨{ type := .ternary, key := a, mask := b }, ?_, rfl, ⟨rfl, hl, hlm⟩, ?_, ?_⟩
    · intro r
      simp [buildOne, PiF.nbytes, List.append_assoc, take_append hl, take_append hlm]
    · intro y hy
      show underMask _ y &&& bytesNat b = paramValue (declared ⟨.optional, w⟩) _ &&& bytesNat b ↔ _
      rw [hpv, hm]
      exact Iff.rfl
    · intro k p' _ hb
      obtain ⟨h1, h2, h3, h4, h5⟩ := hb
      refine key_eq h1 (bytesNat_inj (by rw [h2]; exact hl.symm) ?_) h4 h5
      rw [h3, hpv]
      simp only [hm, hxm]
      exact hn.symm
  case range.range lo hi =>
    obtain ⟨a, b, rfl, ⟨hl, hn⟩, ⟨hlm, hm⟩⟩ := he
    obtain ⟨hle, hhi⟩ := hc
    simp only at hhi
    have hpv : paramValue (declared ⟨.range, w⟩) { type := .range, key := a, mask := b } = lo := by
      simp only [paramValue, declared, underMask, hn]
      exact Nat.mod_eq_of_lt (by omega)
    refine ⟨{ type := .range, key := a, mask := b }, ?_, rfl,
      ⟨rfl, hl, ⟨hlm, by rw [hn, hm]; exact hle⟩⟩, ?_, ?_⟩
    · intro r
      simp [buildOne, PiF.nbytes, List.append_assoc, take_append hl, take_append hlm]
    · intro y hy
      show paramValue (declared ⟨.range, w⟩) _ ≤ underMask _ y ∧ underMask _ y ≤ bytesNat b ↔ _
      rw [hpv, hm]
      exact Iff.rfl
    · intro k p' _ hb
      obtain ⟨h1, h2, h3, h4, h5⟩ := hb
      refine key_eq h1 (bytesNat_inj (by rw [h2]; exact hl.symm) ?_) h4 h5
      rw [h3, hpv]; exact hn.symm

/-- The priority handed to bmv2. -/
def toBm (fs : List PiF) (prio : Nat) (acc : Int) : Int :=
  if fs.any PiF.usesPriority then (bmMaxPriority - prio : Nat) else acc

/-- What is known of the parameters that stand for a list of matches. -/
structure StandsAll (fs : List PiF) (vs : List Val) (l : Bytes) (ps : List MParam) : Prop where
  build : ∀ prio ≤ bmMaxPriority, ∀ acc, buildLoop prio fs l acc = some (ps, toBm fs prio acc)
  emit : emitMatchKey ps = l
  ok : ParamsOk (fs.map declared) ps
  len : vs.length = fs.length
  meets : ∀ vals, ValuesOk (fs.map declared) vals →
    (AllMatch (fun w => w) (fs.map declared) ps vals ↔ AllMeet fs vs vals)
  back : ∀ keepLow ps', (keepLow = false → ∀ f ∈ fs, f.type = .lpm → f.bitwidth % 8 = 0) →
    ps'.length = fs.length →
    (∀ (i : Nat) (f : KeyF) (p p' : MParam), (fs.map declared)[i]? = some f →
      ps[i]? = some p → ps'[i]? = some p' → ReadsBack keepLow f p p') → ps' = ps

theorem allMatch_cons {f : KeyF} {fs : List KeyF} {p : MParam} {ps : List MParam} {v : Bytes}
    {vals : List Bytes} : AllMatch (fun w => w) (f :: fs) (p :: ps) (v :: vals) ↔
      FieldMatches (fun w => w) f p (bytesNat v) ∧ AllMatch (fun w => w) fs ps vals := by
  constructor
  · intro h
    exact ⟨h 0 f p v rfl rfl rfl, fun i f' p' v' h1 h2 h3 => h (i + 1) f' p' v' h1 h2 h3⟩
  · rintro ⟨h0, h⟩ i f' p' v' h1 h2 h3
    cases i with
    | zero =>
      simp only [List.getElem?_cons_zero, Option.some.injEq] at h1 h2 h3
      subst h1; subst h2; subst h3; exact h0
    | succ i => exact h i f' p' v' h1 h2 h3

theorem allMeet_cons {f : PiF} {fs : List PiF} {p : Val} {ps : List Val} {v : Bytes}
    {vals : List Bytes} : AllMeet (f :: fs) (p :: ps) (v :: vals) ↔
      Meets f p (bytesNat v) ∧ AllMeet fs ps vals := by
  constructor
  · intro h
    exact ⟨h 0 f p v rfl rfl rfl, fun i f' p' v' h1 h2 h3 => h (i + 1) f' p' v' h1 h2 h3⟩
  · rintro ⟨h0, h⟩ i f' p' v' h1 h2 h3
    cases i with
    | zero =>
      simp only [List.getElem?_cons_zero, Option.some.injEq] at h1 h2 h3
      subst h1; subst h2; subst h3; exact h0
    | succ i => exact h i f' p' v' h1 h2 h3

theorem standsAll {fs : List PiF} {vs : List Val} {l : Bytes} (he : Encodes fs vs l)
    (hw : ∀ f ∈ fs, f.bitwidth < 2 ^ 31) (hc : AllCanonical fs vs) :
    ∃ ps, StandsAll fs vs l ps := by
  induction he with
  | nil =>
    refine ⟨[], fun _ _ _ => rfl, rfl, ⟨rfl, by intro i f p h; simp at h⟩, rfl, ?_, ?_⟩
    · intro vals _
      exact ⟨fun _ i f v b h => by simp at h, fun _ i f v b h => by simp at h⟩
    · intro k ps' _ h _
      exact List.length_eq_zero_iff.mp h
  | @cons f fs v vs a l h1 h2 ih =>
    obtain ⟨ps, ih⟩ := ih (fun f hf => hw f (List.mem_cons_of_mem _ hf))
      (fun i f v h h' => hc (i + 1) f v h h')
    obtain ⟨p, hp⟩ := stands (hw f (List.mem_cons_self ..)) h1 (hc 0 f v rfl rfl)
    refine ⟨p :: ps, ?_, ?_, ⟨by simp [ih.ok.1], ?_⟩, by simp [ih.len], ?_, ?_⟩
    · intro prio hle acc
      have hs : stepPriority f prio acc
          = some (if f.usesPriority then ((bmMaxPriority - prio : Nat) : Int) else acc) := by
        unfold stepPriority piToBm
        rw [if_pos hle]
        split <;> rfl
      have hb := ih.build prio hle (if f.usesPriority then ((bmMaxPriority - prio : Nat) : Int) else acc)
      have ht : toBm fs prio (if f.usesPriority then ((bmMaxPriority - prio : Nat) : Int) else acc)
          = toBm (f :: fs) prio acc := by
        unfold toBm
        simp only [List.any_cons]
        by_cases hu : f.usesPriority = true <;> by_cases hv : fs.any PiF.usesPriority = true <;>
          simp only [hu, hv, Bool.or_true, Bool.true_or, Bool.or_self, if_true, if_false,
            Bool.false_eq_true]
      simp only [buildLoop, hp.build l, Option.bind_eq_bind, Option.bind_some, hs, hb, ht]
    · show emitOne p ++ emitMatchKey ps = a ++ l
      rw [hp.emit, ih.emit]
    · intro i g q hg hq
      cases i with
      | zero =>
        simp only [List.map_cons, List.getElem?_cons_zero, Option.some.injEq] at hg hq
        subst hg; subst hq; exact hp.ok
      | succ i => exact ih.ok.2 i g q hg hq
    · intro vals hval
      match vals, hval with
      | [], hval => simp [ValuesOk] at hval
      | b :: vals, hval =>
        have hval' : ValuesOk (fs.map declared) vals :=
          ⟨by simpa using hval.1, fun i g x h h' => hval.2 (i + 1) g x h h'⟩
        rw [List.map_cons, allMatch_cons, allMeet_cons, ih.meets vals hval',
          hp.meets _ (hval.2 0 (declared f) b rfl rfl).2]
    · intro k ps' hk hlen hb
      match ps', hlen with
      | [], hlen => simp at hlen
      | p' :: ps', hlen =>
        have e1 : p' = p := hp.back k p' (fun h => hk h f (List.mem_cons_self ..))
          (hb 0 (declared f) p p' rfl rfl rfl)
        have e2 : ps' = ps := ih.back k ps' (fun h f' hf' => hk h f' (List.mem_cons_of_mem _ hf'))
          (by simpa using hlen) (fun i g q q' h h' h'' => hb (i + 1) g q q' h h' h'')
        rw [e1, e2]

theorem fieldsOk {fs : List PiF} (h : ∀ f ∈ fs, 1 ≤ f.bitwidth) : FieldsOk (fs.map declared) := by
  intro g hg
  obtain ⟨f, hf, rfl⟩ := List.mem_map.mp hg
  have := h f hf
  obtain ⟨ty, w⟩ := f
  cases ty <;> simp_all [declared]

theorem validOk (fs : List PiF) : ValidOk (fs.map declared) := by
  intro g hg
  obtain ⟨f, hf, rfl⟩ := List.mem_map.mp hg
  obtain ⟨ty, w⟩ := f
  cases ty <;> simp [declared]

/-! ## Action data -/

theorem bitsNat_bytes (l : Bytes) : bitsNat (bytesBits l) = bytesNat l := by
  induction l with
  | nil => rfl
  | cons b l ih =>
    rw [bytesBits_cons, bitsNat_append, bitsNat_byteBits, bytesBits_length, ih, bytesNat,
      Nat.pow_mul]

theorem import_nat (l : Bytes) : Data.importBytes l = (bytesNat l : Nat) := by
  rw [Data.importBytes_eq, bitsNat_bytes]

theorem bytesNat_replicate_append (n : Nat) (l : Bytes) :
    bytesNat (List.replicate n 0 ++ l) = bytesNat l := by
  induction n with
  | zero => rfl
  | succ n ih => rw [List.replicate_succ, List.cons_append, bytesNat, ih]; simp

theorem bytesNat_beBytes {size n : Nat} (h : n < 256 ^ size) :
    bytesNat (Data.beBytes size n) = n := by
  rw [← bitsNat_bytes, Data.bytesBits_beBytes, bitsNat_natBits]
  rw [Nat.pow_mul]
  exact Nat.mod_eq_of_lt h

/-- `get_string` gives the value without leading zero bytes, one byte for 0. -/
theorem getString_nat (n : Nat) : ∃ s, getString (n : Int) = some s ∧ bytesNat s = n ∧
    ∀ k, 1 ≤ k → n < 256 ^ k → s.length ≤ k := by
  by_cases h0 : n = 0
  · subst h0
    exact ⟨[0], rfl, rfl, fun k hk _ => by simpa using hk⟩
  · have hv : ((n : Int)) ≠ 0 := by omega
    have hs : sizeInBase2 (n : Int) = Nat.log2 n + 1 := by
      unfold sizeInBase2; rw [if_neg hv, Int.natAbs_natCast]
    have hlt : n < 256 ^ ((Nat.log2 n + 1 + 7) / 8) := by
      have h1 : n < 2 ^ (Nat.log2 n + 1) := Nat.lt_log2_self
      have h2 : 2 ^ (Nat.log2 n + 1) ≤ 2 ^ (8 * ((Nat.log2 n + 1 + 7) / 8)) :=
        Nat.pow_le_pow_right (by decide) (by omega)
      rw [Nat.pow_mul] at h2
      exact lt_of_lt_of_le h1 h2
    refine ⟨Data.beBytes ((Nat.log2 n + 1 + 7) / 8) n, ?_, bytesNat_beBytes hlt, ?_⟩
    · unfold getString Data.exportBytes
      rw [hs, if_neg hv, Int.natAbs_natCast, if_pos hlt]
    · intro k hk hn
      rw [Data.beBytes_length]
      have : Nat.log2 n < 8 * k := by
        rw [Nat.log2_lt h0, Nat.pow_mul]; exact hn
      omega

theorem dumpOne_import {bw : Nat} {a : Bytes} (hbw : 1 ≤ bw) (h : a.length = (bw + 7) / 8) :
    dumpOne bw (Data.importBytes a) = some a := by
  obtain ⟨s, e, hn, hk⟩ := getString_nat (bytesNat a)
  have hle := hk ((bw + 7) / 8) (by omega) (h ▸ bytesNat_lt a)
  rw [import_nat]
  unfold dumpOne
  rw [e]
  simp only [Option.bind_eq_bind, Option.bind_some, if_pos hle, Option.some.injEq]
  apply bytesNat_inj
  · rw [List.length_append, List.length_replicate, h]; omega
  · rw [bytesNat_replicate_append, hn]

end Bm.PiEntry
