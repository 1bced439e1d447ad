import Verif.Model.Header
import Verif.Lemmas.Field

/-!
# Lemmas on headers
-/

namespace Bm.Header

open Bm.Spec Bm.Extract Bm.Field

/-- The bits of a field on the wire. -/
def fieldBits (f : Field) : List Bool := (bytesBits f.bytes).drop (8 * f.bytes.length - f.nbits)

/-- The bits of the visible fields on the wire. -/
def wire (fs : List Field) : List Bool := (visible fs).flatMap fieldBits

/-- Number of bits of the visible fields. -/
def total (fs : List Field) : Nat := ((visible fs).map (·.nbits)).sum

/-- Sizes are right and the padding is zero. -/
structure Padded (f : Field) : Prop where
  shape : f.Shape
  pad : (bytesBits f.bytes).take (8 * f.bytes.length - f.nbits)
    = List.replicate (8 * f.bytes.length - f.nbits) false

/-- Same layout. -/
structure Same (f g : Field) : Prop where
  kind : f.kind = g.kind
  arith : f.arith = g.arith
  hidden : f.hidden = g.hidden
  vl : f.vl = g.vl

theorem fieldBits_length {f : Field} (hf : f.Shape) : (fieldBits f).length = f.nbits := by
  unfold fieldBits
  rw [List.length_drop, bytesBits_length, hf.len, hf.nbytes]
  omega

theorem wire_length {fs : List Field} (h : ∀ f ∈ visible fs, f.Shape) :
    (wire fs).length = total fs := by
  unfold wire total
  generalize visible fs = l at h
  induction l with
  | nil => rfl
  | cons f l ih =>
    rw [List.flatMap_cons, List.length_append, fieldBits_length (h f (by simp)),
      ih (fun g hg => h g (by simp [hg])), List.map_cons, List.sum_cons]

theorem visible_cons (f : Field) (fs : List Field) :
    visible (f :: fs) = if f.hidden then [] else f :: visible fs := by
  unfold visible
  rw [List.takeWhile_cons]
  cases f.hidden <;> rfl

/-- No field of width 0 starts inside a byte. -/
def ZeroOk : List Nat → Nat → Prop
  | [], _ => True
  | w :: ws, o => (o % 8 = 0 ∨ w ≠ 0) ∧ ZeroOk ws (o + w)

theorem zeroOk_mod : ∀ (ws : List Nat) (o : Nat), ZeroOk ws o ↔ ZeroOk ws (o % 8)
  | [], _ => Iff.rfl
  | w :: ws, o => by
    unfold ZeroOk
    rw [Nat.mod_mod, zeroOk_mod ws (o + w), zeroOk_mod ws (o % 8 + w), Nat.mod_add_mod]

theorem same_refl : ∀ fs : List Field, List.Forall₂ Same fs fs
  | [] => List.Forall₂.nil
  | _ :: fs => List.Forall₂.cons ⟨rfl, rfl, rfl, rfl⟩ (same_refl fs)

theorem Same.visible {fs gs : List Field} (h : List.Forall₂ Same fs gs) :
    List.Forall₂ Same (visible fs) (visible gs) := by
  induction h with
  | nil => exact List.Forall₂.nil
  | cons h1 _ ih =>
    rw [visible_cons, visible_cons, h1.hidden]
    split
    · exact List.Forall₂.nil
    · exact List.Forall₂.cons h1 ih

theorem Same.nbits {f g : Field} (h : Same f g) : f.nbits = g.nbits := congrArg Kind.w h.kind

theorem extractFields_spec (fs : List Field) : ∀ (i : Nat) (data : Bytes) (o : Nat)
    (_ : ∀ f ∈ visible fs, f.Shape0) (_ : o < 8) (_ : ZeroOk ((visible fs).map (·.nbits)) o)
    (_ : (o + total fs + 7) / 8 ≤ data.length),
    ∃ fs', extractFields none i fs data o = some fs' ∧ List.Forall₂ Same fs fs' ∧
      (∀ f ∈ visible fs', Padded f ∧
        (f.arith = true → f.kind.Fits f.value ∧ IsBytesOf f.nbits f.value f.bytes)) ∧
      wire fs' = ((bytesBits data).drop o).take (total fs) ∧
      fs'.drop (visible fs).length = fs.drop (visible fs).length := by
  induction fs with
  | nil =>
    intro i data o _ _ _ _
    exact ⟨[], rfl, List.Forall₂.nil, by simp [visible], by simp [wire, visible, total], by simp⟩
  | cons f fs ih =>
    intro i data o hs ho hz hl
    by_cases hh : f.hidden = true
    · refine ⟨f :: fs, by simp [extractFields, hh], ?_, ?_, ?_, ?_⟩
      · exact same_refl _
      · simp [visible_cons, hh]
      · simp [wire, total, visible_cons, hh]
      · simp [visible_cons, hh]
    · have hv : visible (f :: fs) = f :: visible fs := by rw [visible_cons, if_neg hh]
      have ht : total (f :: fs) = f.nbits + total fs := by
        unfold total; rw [hv, List.map_cons, List.sum_cons]
      rw [hv] at hs
      rw [ht] at hl
      rw [hv, List.map_cons] at hz
      have hz1 := hz.1
      rw [Nat.mod_eq_of_lt ho] at hz1
      obtain ⟨f', h1, h2, h3, h4, h5, h6, h7, h8⟩ := extract_spec (hs f (by simp)) data o ho hz1 (by omega)
      have hn : f'.nbits = f.nbits := congrArg Kind.w h3
      obtain ⟨fs', g1, g2, g3, g4, g5⟩ := ih (i + 1) (data.drop ((o + f.nbits) / 8)) ((o + f.nbits) % 8)
        (fun g hg => hs g (by simp [hg])) (Nat.mod_lt _ (by omega)) ((zeroOk_mod _ _).1 hz.2)
        (by rw [List.length_drop]; omega)
      have hnb : f.nbytes = (f.nbits + 7) / 8 := (hs f (by simp)).nbytes
      have hlen : f'.bytes.length = f.nbytes := by rw [h2.len, h2.nbytes, hn, hnb]
      have hpad : (List.replicate (8 * f.nbytes - f.nbits) false).length = 8 * f'.bytes.length - f'.nbits := by
        rw [List.length_replicate, hlen, hn]
      have hfb : fieldBits f' = ((bytesBits data).drop o).take f.nbits := by
        unfold fieldBits
        rw [h7, ← hpad, List.drop_left]
      have hh' : ¬ f'.hidden = true := by rw [h5]; exact hh
      have hv' : visible (f' :: fs') = f' :: visible fs' := by rw [visible_cons, if_neg hh']
      refine ⟨f' :: fs', ?_, ?_, ?_, ?_, ?_⟩
      · unfold extractFields
        rw [if_neg hh]
        simp only [extractOne, h1, Option.bind_eq_bind, Option.bind_some, hn, g1]
        rfl
      · exact List.Forall₂.cons ⟨h3.symm, h4.symm, h5.symm, h6.symm⟩ g2
      · rw [hv']
        intro g hg
        rcases List.mem_cons.1 hg with rfl | hg
        · refine ⟨⟨h2, ?_⟩, ?_⟩
          · rw [h7, ← hpad, List.take_left, List.length_replicate]
          · intro ha
            rw [h4] at ha
            have := h8 ha
            rw [h3, hn]
            exact this
        · exact g3 g hg
      · have : wire (f' :: fs') = fieldBits f' ++ wire fs' := by
          unfold wire; rw [hv', List.flatMap_cons]
        rw [this, g4, hfb, ht, bytesBits_drop, List.drop_drop]
        rw [show 8 * ((o + f.nbits) / 8) + (o + f.nbits) % 8 = o + f.nbits by omega]
        rw [List.take_add, List.drop_drop]
      · rw [hv]
        simp only [List.length_cons, List.drop_succ_cons]
        exact g5

theorem deparseFields_spec (fs : List Field) : ∀ (dst : Bytes) (o : Nat)
    (_ : ∀ f ∈ visible fs, Padded f) (_ : o < 8)
    (_ : (o + total fs + 7) / 8 ≤ dst.length),
    ∃ r, deparseFields fs dst o = some r ∧ r.length = dst.length ∧
      (bytesBits r).take (o + total fs) = (bytesBits dst).take o ++ wire fs ∧
      r.drop ((o + total fs + 7) / 8) = dst.drop ((o + total fs + 7) / 8) := by
  induction fs with
  | nil =>
    intro dst o _ _ _
    exact ⟨dst, rfl, rfl, by simp [wire, visible, total], by simp [visible, total]⟩
  | cons f fs ih =>
    intro dst o hs ho hl
    by_cases hh : f.hidden = true
    · exact ⟨dst, by simp [deparseFields, hh], rfl, by simp [wire, total, visible_cons, hh], rfl⟩
    · have hv : visible (f :: fs) = f :: visible fs := by rw [visible_cons, if_neg hh]
      have ht : total (f :: fs) = f.nbits + total fs := by
        unfold total; rw [hv, List.map_cons, List.sum_cons]
      rw [hv] at hs
      rw [ht] at hl
      have hf := hs f (by simp)
      obtain ⟨d', h1, h2, z, ⟨h3, _⟩, h4⟩ := genericDeparse_spec f.bytes dst f.nbits o ho
        (by rw [hf.shape.len, hf.shape.nbytes]) hf.pad (by omega)
      have hfl := fieldBits_length hf.shape
      set k := (o + f.nbits) / 8 with hk
      obtain ⟨r, g1, g2, g3, g4⟩ := ih (d'.drop k) ((o + f.nbits) % 8)
        (fun g hg => hs g (by simp [hg])) (Nat.mod_lt _ (by omega)) (by rw [List.length_drop]; omega)
      have hd'l : (bytesBits d').length = 8 * dst.length := by rw [bytesBits_length, h2]
      have htk : (d'.take k).length = k := by rw [List.length_take]; omega
      have hdk : (bytesBits d').take (o + f.nbits) = (bytesBits dst).take o ++ fieldBits f := by
        rw [h4]
        change List.take _ (_ ++ (fieldBits f ++ _)) = _
        rw [← List.append_assoc]
        apply List.take_left'
        rw [List.length_append, List.length_take, bytesBits_length, hfl]
        omega
      refine ⟨d'.take k ++ r, ?_, ?_, ?_, ?_⟩
      · unfold deparseFields
        rw [if_neg hh]
        simp only [Field.deparse, h1, Option.bind_eq_bind, Option.bind_some, ← hk, g1]
        rfl
      · rw [List.length_append, htk, g2, List.length_drop, h2]
        omega
      · have hw : wire (f :: fs) = fieldBits f ++ wire fs := by
          unfold wire; rw [hv, List.flatMap_cons]
        rw [hw, ← List.append_assoc, ← hdk, bytesBits_append, List.take_append, ht,
          List.take_of_length_le (by rw [bytesBits_length, htk]; omega), bytesBits_length, htk,
          show o + (f.nbits + total fs) - 8 * k = (o + f.nbits) % 8 + total fs by omega, g3,
          ← List.append_assoc]
        congr 1
        rw [bytesBits_take, bytesBits_drop, ← List.take_add]
        congr 1
        omega
      · rw [ht]
        have e : (o + (f.nbits + total fs) + 7) / 8
            = k + (((o + f.nbits) % 8 + total fs + 7) / 8) := by omega
        rw [List.drop_append, List.drop_eq_nil_of_le (by rw [htk, e]; omega), List.nil_append, htk, e,
          Nat.add_sub_cancel_left, g4, List.drop_drop, ← e]
        -- the suffix of `d'`
        apply bytesBits_inj
        have hge : (o + f.nbits + 7) / 8 ≤ (o + (f.nbits + total fs) + 7) / 8 := by omega
        have hl3 : ((bytesBits dst).take o ++ (fieldBits f ++ z)).length = 8 * ((o + f.nbits + 7) / 8) := by
          simp only [List.length_append, List.length_take, bytesBits_length, hfl, h3]
          omega
        rw [bytesBits_drop, bytesBits_drop, h4]
        change List.drop _ (_ ++ (fieldBits f ++ (z ++ _))) = _
        rw [← List.append_assoc (fieldBits f), ← List.append_assoc, List.drop_append,
          List.drop_eq_nil_of_le (by omega), List.nil_append, hl3, List.drop_drop]
        congr 1
        omega

/-- The bits on the wire determine the bytes of the fields. -/
theorem bytes_of_wire {l m : List Field} (h : List.Forall₂ Same l m) (hl : ∀ f ∈ l, Padded f)
    (hm : ∀ f ∈ m, Padded f) (hw : l.flatMap fieldBits = m.flatMap fieldBits) :
    l.map (·.bytes) = m.map (·.bytes) := by
  induction h with
  | nil => rfl
  | @cons f g l m h1 _ ih =>
    have hf := hl f (by simp)
    have hg := hm g (by simp)
    rw [List.flatMap_cons, List.flatMap_cons] at hw
    obtain ⟨e1, e2⟩ := List.append_inj hw
      (by rw [fieldBits_length hf.shape, fieldBits_length hg.shape, h1.nbits])
    rw [List.map_cons, List.map_cons, ih (fun a ha => hl a (by simp [ha]))
      (fun a ha => hm a (by simp [ha])) e2]
    congr 1
    apply bytesBits_inj
    have hlen : f.bytes.length = g.bytes.length := by
      rw [hf.shape.len, hg.shape.len, hf.shape.nbytes, hg.shape.nbytes, h1.nbits]
    rw [← List.take_append_drop (8 * f.bytes.length - f.nbits) (bytesBits f.bytes),
      ← List.take_append_drop (8 * g.bytes.length - g.nbits) (bytesBits g.bytes), hf.pad, hg.pad]
    change _ ++ fieldBits f = _ ++ fieldBits g
    rw [e1, hlen, h1.nbits]

/-- The bytes determine the number. -/
theorem value_of_bytes {k : Kind} (hk : k.signed = true → 1 < k.w) {v r : Int} {l : Bytes} (hv : k.Fits v) (hr : k.Fits r)
    (h1 : IsBytesOf k.w v l) (h2 : IsBytesOf k.w r l) : v = r := by
  have h := h1.2.symm.trans h2.2
  have h := List.append_cancel_left h
  unfold intBits at h
  have hpos : (0 : Int) < 2 ^ k.w := by positivity
  have e := congrArg bitsNat h
  rw [bitsNat_natBits, bitsNat_natBits] at e
  have hlt : ∀ x : Int, (x % 2 ^ k.w).toNat % 2 ^ k.w = (x % 2 ^ k.w).toNat := by
    intro x
    apply Nat.mod_eq_of_lt
    have := Int.emod_lt_of_pos x hpos
    have h0 := Int.emod_nonneg x (ne_of_gt hpos)
    have : ((x % 2 ^ k.w).toNat : Int) < 2 ^ k.w := by omega
    exact_mod_cast this
  rw [hlt, hlt] at e
  have hv0 := Int.emod_nonneg v (ne_of_gt hpos)
  have hr0 := Int.emod_nonneg r (ne_of_gt hpos)
  have em : v % 2 ^ k.w = r % 2 ^ k.w := by omega
  have hd : (2 ^ k.w : Int) ∣ v - r :=
    Int.dvd_of_emod_eq_zero (Int.emod_eq_emod_iff_emod_sub_eq_zero.1 em)
  obtain ⟨c, hc⟩ := hd
  unfold Kind.Fits Kind.lowest Kind.highest at hv hr
  have hb : -(2 ^ k.w : Int) < v - r ∧ v - r < 2 ^ k.w := by
    cases hs : k.signed with
    | false =>
      simp only [hs, Bool.false_eq_true, if_false] at hv hr
      omega
    | true =>
      simp only [hs, if_true] at hv hr
      rw [two_pow_half (hk hs)]
      omega
  rw [hc] at hb
  have hc0 : c = 0 := by
    by_contra hne
    rcases lt_or_gt_of_ne hne with h | h
    · have : (2 ^ k.w : Int) * c ≤ 2 ^ k.w * (-1) := Int.mul_le_mul_of_nonneg_left (by omega) (by omega)
      omega
    · have : (2 ^ k.w : Int) * 1 ≤ 2 ^ k.w * c := Int.mul_le_mul_of_nonneg_left (by omega) (by omega)
      omega
  rw [hc0] at hc
  omega

/-- The layout of the fields once the width of the variable-length one is known. -/
def prep (vl : Option (Nat × Int)) (i : Nat) (f : Field) : Field :=
  match vl with
  | none => f
  | some (k, n) =>
    if i = k then
      { f with nbits := n.toNat, nbytes := (n.toNat + 7) / 8, mask := 2 ^ n.toNat - 1,
               max := 2 ^ n.toNat - 1, min := 0 }
    else f

/-- All of them. -/
def prepAll (vl : Option (Nat × Int)) : Nat → List Field → List Field
  | _, [] => []
  | i, f :: fs => prep vl i f :: prepAll vl (i + 1) fs

theorem prep_hidden (vl i f) : (prep vl i f).hidden = f.hidden := by
  unfold prep
  split
  · rfl
  · split <;> rfl

theorem prepAll_id (vl : Option (Nat × Int)) (fs : List Field) : ∀ i
    (_ : ∀ p ∈ vl, ∀ j f, fs[j]? = some f → i + j ≠ p.1), prepAll vl i fs = fs := by
  induction fs with
  | nil => intro i _; rfl
  | cons f fs ih =>
    intro i h
    rw [prepAll, ih (i + 1) (fun p hp j g hj e => h p hp (j + 1) g (by simpa using hj) (by omega))]
    congr 1
    unfold prep
    cases vl with
    | none => rfl
    | some p =>
      have : i ≠ p.1 := by simpa using h p rfl 0 f rfl
      simp [this]

theorem extractFields_prep (vl : Option (Nat × Int)) (hn : ∀ p ∈ vl, 0 ≤ p.2) (fs : List Field) :
    ∀ (i : Nat) (data : Bytes) (o : Nat) (_ : ∀ f ∈ fs, f.vl = true → f.isSigned = false)
    (_ : ∀ p ∈ vl, ∀ j f, fs[j]? = some f → i + j = p.1 → f.vl = true ∧ f.hidden = false)
    (_ : fs.Pairwise fun f g => f.hidden = true → g.hidden = true),
    extractFields vl i fs data o = extractFields none i (prepAll vl i fs) data o := by
  induction fs with
  | nil => intro i data o _ _ _; rfl
  | cons f fs ih =>
    intro i data o h1 h2 h3
    by_cases hh : f.hidden = true
    · have hid : prepAll vl i (f :: fs) = f :: fs := by
        apply prepAll_id
        intro p hp j g hj e
        have hg := (h2 p hp j g hj e).2
        cases j with
        | zero => simp at hj; rw [← hj, hh] at hg; cases hg
        | succ j =>
          have := (List.pairwise_cons.1 h3).1 g (List.mem_of_getElem? (by simpa using hj)) hh
          rw [this] at hg; cases hg
      rw [hid]
      simp [extractFields, hh]
    · have hp : ¬ (prep vl i f).hidden = true := by rw [prep_hidden]; exact hh
      have hone : extractOne vl i f data o = (prep vl i f).extract data o := by
        unfold extractOne prep
        cases vl with
        | none => rfl
        | some p =>
          obtain ⟨k, n⟩ := p
          dsimp only
          by_cases hik : i = k
          · rw [if_pos hik, if_pos hik]
            have hs : f.isSigned = false :=
              h1 f (by simp) (h2 (k, n) rfl 0 f rfl (by simpa using hik)).1
            have hn0 := hn (k, n) rfl
            unfold extractVL
            rw [if_neg (by simpa using hn0)]
            simp [hs]
          · rw [if_neg hik, if_neg hik]
      unfold extractFields prepAll
      rw [if_neg hh]
      simp only [if_neg hp]
      rw [hone]
      simp only [extractOne, Option.bind_eq_bind]
      cases hx : (prep vl i f).extract data o with
      | none => rfl
      | some f' =>
        simp only [Option.bind_some]
        rw [ih (i + 1) (data.drop ((o + f'.nbits) / 8)) ((o + f'.nbits) % 8)
          (fun g hg => h1 g (by simp [hg]))
          (fun p hp j g hj e => h2 p hp (j + 1) g (by simpa using hj) (by omega))
          (List.pairwise_cons.1 h3).2]

theorem visible_append_hidden (l : List Field) (v : Field) (hv : v.hidden = true) :
    visible (l ++ [v]) = visible l := by
  unfold visible
  rw [List.takeWhile_append]
  split
  · rename_i h
    rw [List.takeWhile_cons, hv]
    simp only [Bool.not_true, Bool.false_eq_true, if_false, List.append_nil]
    exact ((List.takeWhile_prefix _).eq_of_length h).symm
  · rfl

theorem prepAll_length (vl) (fs : List Field) : ∀ i, (prepAll vl i fs).length = fs.length := by
  induction fs with
  | nil => intro i; rfl
  | cons f fs ih => intro i; simp [prepAll, ih]

theorem widths_prepAll_none (fs : List Field) : ∀ i, prepAll none i fs = fs := by
  induction fs with
  | nil => intro i; rfl
  | cons f fs ih => intro i; simp [prepAll, ih, prep]

theorem widths_prepAll (k : Nat) (n : Int) (fs : List Field) : ∀ i, i ≤ k →
    (visible (prepAll (some (k, n)) i fs)).map (·.nbits)
      = ((visible fs).map (·.nbits)).set (k - i) n.toNat := by
  have hlt : ∀ (fs : List Field) i, k < i → prepAll (some (k, n)) i fs = fs := by
    intro fs
    induction fs with
    | nil => intro i _; rfl
    | cons f fs ih =>
      intro i hi
      rw [prepAll, ih (i + 1) (by omega)]
      simp [prep, show i ≠ k by omega]
  induction fs with
  | nil => intro i _; rfl
  | cons f fs ih =>
    intro i hi
    rw [prepAll, visible_cons, visible_cons, prep_hidden]
    split
    · simp
    · rw [List.map_cons, List.map_cons]
      by_cases hik : i = k
      · subst hik
        rw [Nat.sub_self, List.set_cons_zero, hlt fs (i + 1) (by omega)]
        simp [prep]
      · rw [ih (i + 1) (by omega), show k - i = (k - (i + 1)) + 1 by omega, List.set_cons_succ]
        simp [prep, hik]

theorem prepAll_shape0 (vl : Option (Nat × Int)) (hs : ∀ f ∈ fs, f.Shape)
    (hu : ∀ f ∈ fs, f.vl = true → f.isSigned = false) : ∀ i
    (_ : ∀ p ∈ vl, ∀ j f, fs[j]? = some f → i + j = p.1 → f.vl = true),
    ∀ f ∈ prepAll vl i fs, f.Shape0 := by
  induction fs with
  | nil => intro i _ f hf; cases hf
  | cons g fs ih =>
    intro i h2 f hf
    rcases List.mem_cons.1 hf with rfl | hf
    · have hg := hs g (by simp)
      unfold prep
      cases vl with
      | none => exact hg.shape0
      | some p =>
        obtain ⟨k, n⟩ := p
        dsimp only
        split
        · rename_i hik
          have hsg : g.isSigned = false := hu g (by simp) (h2 (k, n) rfl 0 g rfl (by simpa using hik))
          refine ⟨rfl, by simp, rfl, ?_, ?_, ?_⟩
          · simp [Field.kind, Kind.highest, hsg]
          · simp [Field.kind, Kind.lowest, hsg]
          · simp [hsg]
        · exact hg.shape0
    · exact ih (fun a ha => hs a (by simp [ha])) (fun a ha => hu a (by simp [ha])) (i + 1)
        (fun p hp j g hj e => h2 p hp (j + 1) g (by simpa using hj) (by omega)) f hf

/-- A header as the constructor makes it and every operation keeps it: visible fields, then the
hidden field; sizes fit; a variable-length field is visible and unsigned. -/
structure WF (h : Header) : Prop where
  shape : ∀ f ∈ h.fields, f.Shape
  last : ∃ l v, h.fields = l ++ [v] ∧ v.hidden = true ∧ ∀ f ∈ l, f.hidden = false
  unsigned : ∀ f ∈ h.fields, f.vl = true → f.isSigned = false
  vl : ∀ k, h.vlOffset = some k → ∃ f, h.fields[k]? = some f ∧ f.vl = true ∧ f.hidden = false
  size : total h.fields = 8 * h.nbytesPacket

/-- Widths of the visible fields, the variable-length one having `n` bits. -/
def widths (h : Header) (n : Int) : List Nat :=
  match h.vlOffset with
  | none => (visible h.fields).map (·.nbits)
  | some k => ((visible h.fields).map (·.nbits)).set k n.toNat

theorem visible_of_last {l : List Field} {v : Field} (hv : v.hidden = true)
    (hl : ∀ f ∈ l, f.hidden = false) : visible (l ++ [v]) = l := by
  rw [visible_append_hidden _ _ hv]
  unfold visible
  clear hv
  induction l with
  | nil => rfl
  | cons f l ih =>
    rw [List.takeWhile_cons, hl f (by simp), ih (fun g hg => hl g (by simp [hg]))]
    rfl

/-- Setting the hidden field leaves the visible ones alone. -/
theorem setValidField_spec {h : Header} {l : List Field} {v : Field} (hf : h.fields = l ++ [v])
    (hv : v.hidden = true) (hs : v.Shape) (x : Int) :
    ∃ v', h.setValidField x = some { h with fields := l ++ [v'] } ∧ v'.hidden = true ∧ v'.Shape ∧
      v'.isSigned = v.isSigned ∧ v'.vl = v.vl ∧ v'.nbits = v.nbits ∧ v.set false x = some v' := by
  obtain ⟨v', h1, h2, h3, _, h5, h6, _⟩ := set_spec hs x
  refine ⟨v', ?_, by rw [h5]; exact hv, h2, congrArg Kind.signed h3, h6, congrArg Kind.w h3, h1⟩
  unfold setValidField
  rw [hf]
  have : (l ++ [v])[(l ++ [v]).length - 1]? = some v := by simp
  rw [this]
  simp only [Option.bind_eq_bind, Option.bind_some, h1]
  simp

theorem forall₂_append_left {α β : Type} {R : α → β → Prop} (a b : List α) :
    ∀ c, List.Forall₂ R (a ++ b) c →
      ∃ c1 c2, c = c1 ++ c2 ∧ List.Forall₂ R a c1 ∧ List.Forall₂ R b c2 := by
  induction a with
  | nil => intro c h; exact ⟨[], c, rfl, List.Forall₂.nil, h⟩
  | cons x a ih =>
    intro c h
    cases h with
    | cons h1 h2 =>
      obtain ⟨c1, c2, rfl, h3, h4⟩ := ih _ h2
      exact ⟨_ :: c1, c2, rfl, List.Forall₂.cons h1 h3, h4⟩

theorem prepAll_append (vl) (a b : List Field) : ∀ i,
    prepAll vl i (a ++ b) = prepAll vl i a ++ prepAll vl (i + a.length) b := by
  induction a with
  | nil => intro i; rfl
  | cons f a ih =>
    intro i
    rw [List.cons_append, prepAll, ih, prepAll, List.cons_append, List.length_cons]
    congr 3
    omega

theorem prepAll_same (vl) (fs : List Field) : ∀ i, List.Forall₂ (fun f g : Field =>
    g.isSigned = f.isSigned ∧ g.isSaturating = f.isSaturating ∧ g.arith = f.arith ∧ g.vl = f.vl
      ∧ g.hidden = f.hidden) fs (prepAll vl i fs) := by
  induction fs with
  | nil => intro i; exact List.Forall₂.nil
  | cons f fs ih =>
    intro i
    refine List.Forall₂.cons ?_ (ih (i + 1))
    unfold prep
    split
    · exact ⟨rfl, rfl, rfl, rfl, rfl⟩
    · split <;> exact ⟨rfl, rfl, rfl, rfl, rfl⟩

theorem forall₂_trans {α : Type} {R S T : α → α → Prop} (h : ∀ a b c, R a b → S b c → T a c) :
    ∀ {l m n : List α}, List.Forall₂ R l m → List.Forall₂ S m n → List.Forall₂ T l n
  | _, _, _, .nil, .nil => .nil
  | _, _, _, .cons h1 h2, .cons h3 h4 => .cons (h _ _ _ h1 h3) (forall₂_trans h h2 h4)

theorem forall₂_right {α β : Type} {R : α → β → Prop} {l : List α} {m : List β}
    (h : List.Forall₂ R l m) : ∀ b ∈ m, ∃ a ∈ l, R a b := by
  induction h with
  | nil => intro b hb; cases hb
  | cons h1 _ ih =>
    intro b hb
    rcases List.mem_cons.1 hb with rfl | hb
    · exact ⟨_, by simp, h1⟩
    · obtain ⟨a, ha, hr⟩ := ih b hb
      exact ⟨a, by simp [ha], hr⟩

theorem forall₂_length {α β : Type} {R : α → β → Prop} {l : List α} {m : List β}
    (h : List.Forall₂ R l m) : l.length = m.length := by
  induction h with
  | nil => rfl
  | cons _ _ ih => simp [ih]

theorem forall₂_getElem? {α β : Type} {R : α → β → Prop} {l : List α} {m : List β}
    (h : List.Forall₂ R l m) : ∀ (i : Nat) a, l[i]? = some a → ∃ b, m[i]? = some b ∧ R a b := by
  induction h with
  | nil => intro i a h; simp at h
  | cons h1 _ ih =>
    intro i a h
    cases i with
    | zero => simp at h; subst h; exact ⟨_, rfl, h1⟩
    | succ i => simpa using ih i a (by simpa using h)

/-- Extracting a header. -/
theorem extract_spec {h : Header} (hw : h.WF) (data : Bytes) (n : Int)
    (hn : h.vlOffset ≠ none → 0 ≤ n) (h8 : (h.widths n).sum % 8 = 0) (hz : ZeroOk (h.widths n) 0)
    (hl : (h.widths n).sum / 8 ≤ data.length) :
    ∃ h', h.extract data n = some h' ∧ h'.WF ∧ h'.valid = true ∧ h'.metadata = h.metadata ∧
      h'.typeId = h.typeId ∧ h'.vlOffset = h.vlOffset ∧ 8 * h'.nbytesPacket = (h.widths n).sum ∧
      (visible h'.fields).map (·.nbits) = h.widths n ∧
      List.Forall₂ (fun f g => g.isSigned = f.isSigned ∧ g.isSaturating = f.isSaturating ∧
        g.arith = f.arith ∧ g.vl = f.vl) (visible h.fields) (visible h'.fields) ∧
      (∀ f ∈ visible h'.fields, Padded f ∧
        (f.arith = true → f.kind.Fits f.value ∧ IsBytesOf f.nbits f.value f.bytes)) ∧
      wire h'.fields = (bytesBits data).take (h.widths n).sum := by
  obtain ⟨l, v, hf, hv, hlv⟩ := hw.last
  have hvis : visible h.fields = l := by rw [hf, visible_of_last hv hlv]
  set vl : Option (Nat × Int) := h.vlOffset.map (·, n) with hvl
  have hkv : ∀ p ∈ vl, ∀ j f, h.fields[j]? = some f → 0 + j = p.1 → f.vl = true ∧ f.hidden = false := by
    intro p hp j f hj e
    rw [hvl] at hp
    obtain ⟨k, hk, rfl⟩ := Option.map_eq_some_iff.1 hp
    obtain ⟨g, hg, h1, h2⟩ := hw.vl k hk
    simp only [Nat.zero_add] at e
    rw [e, hg] at hj
    cases hj
    exact ⟨h1, h2⟩
  have hkl : ∀ p ∈ vl, l.length ≠ p.1 := by
    intro p hp e
    have := (hkv p hp l.length v (by rw [hf]; simp) (by simpa using e)).2
    rw [hv] at this; cases this
  have hP : prepAll vl 0 h.fields = prepAll vl 0 l ++ [v] := by
    rw [hf, prepAll_append, prepAll_id vl [v]]
    intro p hp j f hj
    cases j with
    | zero => simpa using hkl p hp
    | succ j => simp at hj
  have hPs := prepAll_same vl l 0
  have hPh : ∀ f ∈ prepAll vl 0 l, f.hidden = false := by
    intro f hf
    obtain ⟨g, hg, hr⟩ := forall₂_right hPs f hf
    rw [hr.2.2.2.2]
    exact hlv g hg
  have hPv : visible (prepAll vl 0 h.fields) = prepAll vl 0 l := by
    rw [hP, visible_of_last hv hPh]
  have hW : (visible (prepAll vl 0 h.fields)).map (·.nbits) = h.widths n := by
    unfold widths
    cases hk : h.vlOffset with
    | none => rw [hvl, hk]; simp [widths_prepAll_none]
    | some k => rw [hvl, hk]; exact widths_prepAll k n h.fields 0 (Nat.zero_le _)
  have htot : total (prepAll vl 0 h.fields) = (h.widths n).sum := by unfold total; rw [hW]
  have hpre : extractFields vl 0 h.fields data 0 = extractFields none 0 (prepAll vl 0 h.fields) data 0 := by
    apply extractFields_prep vl _ h.fields 0 data 0 hw.unsigned hkv
    · rw [hf, List.pairwise_append]
      refine ⟨?_, by simp, ?_⟩
      · apply List.Pairwise.imp_of_mem (R := fun _ _ => True)
        · intro a b ha _ _ h; rw [hlv a ha] at h; cases h
        · exact List.pairwise_of_forall fun _ _ => trivial
      · intro a ha b hb h; rw [hlv a ha] at h; cases h
    · intro p hp
      rw [hvl] at hp
      obtain ⟨k, hk, rfl⟩ := Option.map_eq_some_iff.1 hp
      exact hn (by rw [hk]; simp)
  obtain ⟨fs', e1, e2, e3, e4, e5⟩ := extractFields_spec (prepAll vl 0 h.fields) 0 data 0
    (fun f hf => prepAll_shape0 vl hw.shape hw.unsigned 0
      (fun p hp j f hj e => (hkv p hp j f hj e).1) f ((List.takeWhile_prefix _).subset hf))
    (by omega) (by rw [hW]; exact hz) (by rw [htot]; omega)
  rw [hP] at e2
  obtain ⟨l', c2, rfl, s1, s2⟩ := forall₂_append_left _ _ _ e2
  have hlen : (prepAll vl 0 l).length = l'.length := forall₂_length s1
  have hc2 : c2 = [v] := by
    rw [hPv, hP, hlen, List.drop_left, ← hlen, List.drop_left] at e5
    exact e5
  subst hc2
  have hl'h : ∀ f ∈ l', f.hidden = false := by
    intro f hf
    obtain ⟨g, hg, hr⟩ := forall₂_right s1 f hf
    rw [← hr.hidden]
    exact hPh g hg
  have hvs : v.Shape := hw.shape v (by rw [hf]; simp)
  have hv1 : visible (l' ++ [v]) = l' := visible_of_last hv hl'h
  have hwid : l'.map (·.nbits) = h.widths n := by
    rw [← hW, hPv]
    have : ∀ {a b : List Field}, List.Forall₂ Same a b → b.map (·.nbits) = a.map (·.nbits) := by
      intro a b hab
      induction hab with
      | nil => rfl
      | cons h1 _ ih => rw [List.map_cons, List.map_cons, ih, h1.nbits]
    exact this s1
  -- the header returned
  have hres : ∃ np : Nat, 8 * np = (h.widths n).sum ∧
      h.extract data n = ({ h with fields := l' ++ [v], nbytesPacket := np } : Header).markValid := by
    unfold extract
    cases hk : h.vlOffset with
    | none =>
      rw [hvl, hk] at hpre e1
      simp only [Option.map_none] at hpre e1
      refine ⟨h.nbytesPacket, ?_, ?_⟩
      · rw [← hw.size]
        unfold widths total
        rw [hk]
      · simp only
        rw [hpre, e1]
        simp [hk]
    | some k =>
      rw [hvl, hk] at hpre e1
      simp only [Option.map_some] at hpre e1
      refine ⟨(h.widths n).sum / 8, by omega, ?_⟩
      simp only
      rw [hpre, e1]
      simp only [Option.bind_eq_bind, Option.bind_some]
      rw [hv1, hwid, if_pos h8]
  obtain ⟨np, hnp, hres⟩ := hres
  obtain ⟨v', r1, r2, r3, r4, r5, r6, _⟩ := setValidField_spec
    (h := { h with valid := true, fields := l' ++ [v], nbytesPacket := np }) rfl hv hvs 1
  have hv2 : visible (l' ++ [v']) = l' := visible_of_last r2 hl'h
  refine ⟨{ h with valid := true, fields := l' ++ [v'], nbytesPacket := np }, by rw [hres]; exact r1,
    ⟨?_, ⟨l', v', rfl, r2, hl'h⟩, ?_, ?_, ?_⟩, rfl, rfl, rfl, rfl, hnp, ?_, ?_, ?_, ?_⟩
  · intro f hf
    rcases List.mem_append.1 hf with hf | hf
    · exact (e3 f (by rw [hv1]; exact hf)).1.shape
    · simp at hf; subst hf; exact r3
  · intro f hf' hfv
    rcases List.mem_append.1 hf' with hf' | hf'
    · obtain ⟨g, hg, hr⟩ := forall₂_right s1 f hf'
      obtain ⟨g', hg', hr'⟩ := forall₂_right hPs g hg
      have : g'.isSigned = false := hw.unsigned g' (by rw [hf]; simp [hg'])
        (by rw [← hr'.2.2.2.1, hr.vl]; exact hfv)
      rw [show f.isSigned = g.isSigned from (congrArg Kind.signed hr.kind).symm, hr'.1]
      exact this
    · simp at hf'
      subst hf'
      rw [r4]
      exact hw.unsigned v (by rw [hf]; simp) (by rw [← r5]; exact hfv)
  · intro k hk
    obtain ⟨f, hfk, h1, h2⟩ := hw.vl k hk
    have hkl' : k < l.length := by
      by_contra hc
      rw [hf, List.getElem?_append_right (by omega)] at hfk
      cases hkk : k - l.length with
      | zero => rw [hkk] at hfk; simp at hfk; rw [← hfk, hv] at h2; cases h2
      | succ m => rw [hkk] at hfk; simp at hfk
    rw [hf, List.getElem?_append_left hkl'] at hfk
    obtain ⟨g, hg, hr⟩ := forall₂_getElem? hPs k f hfk
    obtain ⟨g', hg', hr'⟩ := forall₂_getElem? s1 k g hg
    refine ⟨g', ?_, by rw [← hr'.vl, hr.2.2.2.1]; exact h1, by rw [← hr'.hidden, hr.2.2.2.2]; exact h2⟩
    rw [List.getElem?_append_left (by rw [← hlen, ← forall₂_length hPs]; exact hkl')]
    exact hg'
  · unfold total
    simp only
    rw [hv2, hwid, hnp]
  · simp only; rw [hv2, hwid]
  · simp only
    rw [hv2, hvis]
    exact forall₂_trans (fun a b c h1 h2 => ⟨by rw [← h1.1]; exact (congrArg Kind.signed h2.kind).symm,
      by rw [← h1.2.1]; exact (congrArg Kind.saturating h2.kind).symm, by rw [← h1.2.2.1, h2.arith],
      by rw [← h1.2.2.2.1, h2.vl]⟩) hPs s1
  · simp only
    rw [hv2]
    rw [hv1] at e3
    exact e3
  · unfold wire at e4 ⊢
    simp only
    rw [hv1, htot] at e4
    rw [hv2, e4, List.drop_zero]

/-- Writing a header. -/
theorem deparse_spec {h : Header} (hp : ∀ f ∈ visible h.fields, Padded f)
    (hs : total h.fields = 8 * h.nbytesPacket) (dst : Bytes) (hl : h.nbytesPacket ≤ dst.length) :
    ∃ r, h.deparse dst = some r ∧ r.length = dst.length ∧
      bytesBits (r.take h.nbytesPacket) = wire h.fields ∧
      r.drop h.nbytesPacket = dst.drop h.nbytesPacket := by
  obtain ⟨r, h1, h2, h3, h4⟩ := deparseFields_spec h.fields dst 0 hp (by omega) (by omega)
  have e : (0 + total h.fields + 7) / 8 = h.nbytesPacket := by omega
  rw [e] at h4
  refine ⟨r, h1, h2, ?_, h4⟩
  rw [bytesBits_take, ← hs]
  simpa using h3

end Bm.Header
