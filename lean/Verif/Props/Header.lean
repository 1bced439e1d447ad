import Verif.Lemmas.Header

/-!
# C30: deparsing a header and parsing it again is the identity
-/

namespace Bm.Header

open Bm.Spec Bm.Extract Bm.Field

/-- A field holds a number of its range and its bytes are that number. -/
structure Holds (f : Field) : Prop where
  fits : f.kind.Fits f.value
  bytes : IsBytesOf f.nbits f.value f.bytes

theorem Holds.padded {f : Field} (h : Holds f) (hs : f.Shape) : Padded f := by
  refine ⟨hs, ?_⟩
  rw [h.bytes.2]
  have : (List.replicate (8 * f.bytes.length - f.nbits) false).length = 8 * f.bytes.length - f.nbits := by
    simp
  exact List.take_left' this

/-- Headers made by the constructor are well formed. -/
theorem mk'_wf {t : Nat} {vlo : Option Nat} {infos : List FInfo} {a m : Bool} {h : Header}
    (hi : ∀ i ∈ infos, i.isHidden = false ∧ (i.isVL = true → i.isSigned = false))
    (hv : ∀ k, vlo = some k → ∃ i, infos[k]? = some i ∧ i.isVL = true)
    (e : mk' t vlo (infos ++ [validInfo a]) m = some h) : h.WF := by
  unfold mk' at e
  simp only [Option.bind_eq_bind, Option.bind_eq_some_iff] at e
  obtain ⟨fields, e1, e2⟩ := e
  split at e2
  · rename_i h8
    cases e2
    rw [List.mapM_append] at e1
    simp only [Option.bind_eq_bind, Option.bind_eq_some_iff] at e1
    obtain ⟨l, l1, vs, l2, l3⟩ := e1
    simp only [List.mapM_cons, List.mapM_nil, Option.bind_eq_bind, Option.bind_eq_some_iff] at l2
    obtain ⟨v, v1, ws, v2, v3⟩ := l2
    cases v2
    cases v3
    cases l3
    have key : ∀ {infos : List FInfo} {l : List Field},
        infos.mapM (fun i => Field.mk' i.bitwidth i.arith i.isSigned i.isHidden i.isVL i.isSaturating)
          = some l →
        List.Forall₂ (fun (i : FInfo) (f : Field) => f.Shape ∧ f.nbits = i.bitwidth ∧
          f.isSigned = i.isSigned ∧ f.hidden = i.isHidden ∧ f.vl = i.isVL) infos l := by
      intro infos
      induction infos with
      | nil => intro l h; cases h; exact List.Forall₂.nil
      | cons i infos ih =>
        intro l h
        simp only [List.mapM_cons, Option.bind_eq_bind, Option.bind_eq_some_iff] at h
        obtain ⟨f, f1, fs, f2, f3⟩ := h
        cases f3
        obtain ⟨g1, g2, g3, _, _, g6, _⟩ := mk'_shape f1
        refine List.Forall₂.cons ⟨g1, g2, g3, g6, ?_⟩ (ih f2)
        unfold Field.mk' at f1
        split at f1
        · cases f1
        · cases f1; rfl
    have hk := key l1
    have hvs := mk'_shape v1
    have hvh : v.hidden = true := hvs.2.2.2.2.2.1
    have hlh : ∀ f ∈ l, f.hidden = false := by
      intro f hf
      obtain ⟨i, h1, h2⟩ := forall₂_right hk f hf
      rw [h2.2.2.2.1]; exact (hi i h1).1
    refine ⟨?_, ⟨l, v, rfl, hvh, hlh⟩, ?_, ?_, ?_⟩
    · intro f hf
      rcases List.mem_append.1 hf with hf | hf
      · obtain ⟨i, _, h2⟩ := forall₂_right hk f hf
        exact h2.1
      · simp at hf; subst hf; exact hvs.1
    · intro f hf hfv
      rcases List.mem_append.1 hf with hf | hf
      · obtain ⟨i, h1, h2⟩ := forall₂_right hk f hf
        rw [h2.2.2.1]
        exact (hi i h1).2 (by rw [← h2.2.2.2.2]; exact hfv)
      · simp at hf; subst hf; exact hvs.2.2.1
    · intro k hk'
      obtain ⟨i, h1, h2⟩ := hv k hk'
      obtain ⟨f, h3, h4⟩ := forall₂_getElem? hk k i h1
      have hkl : k < l.length := (List.getElem?_eq_some_iff.1 h3).1
      exact ⟨f, by rw [List.getElem?_append_left hkl]; exact h3, by rw [h4.2.2.2.2]; exact h2,
        hlh f (List.mem_of_getElem? h3)⟩
    · have hfil : (infos ++ [validInfo a]).filter (!·.isHidden) = infos := by
        rw [List.filter_append]
        simp only [validInfo, List.filter_cons, Bool.not_true, Bool.false_eq_true, if_false,
          List.filter_nil, List.append_nil]
        rw [List.filter_eq_self]
        intro i h; simp [(hi i h).1]
      rw [hfil] at h8
      unfold total
      rw [visible_of_last hvh hlh, hfil]
      have : l.map (·.nbits) = infos.map (·.bitwidth) := by
        clear h8 hfil hlh hv hi l1
        induction hk with
        | nil => rfl
        | cons h1 _ ih => rw [List.map_cons, List.map_cons, ih, h1.2.1]
      rw [this]
      simp only
      omega
  · cases e2

/-- **C30**, extracting then emitting: for every header layout (`n` is the width of its
variable-length field, if it has one) and every packet that is long enough, extraction succeeds and
emitting the result over any buffer reproduces the bytes extracted and leaves the rest of the buffer
alone.  Excluded: an empty variable-length field that starts inside a byte (see `C29_refuted`). -/
theorem C30_bytes {h : Header} (hw : h.WF) (data : Bytes) (n : Int)
    (hn : h.vlOffset ≠ none → 0 ≤ n) (h8 : (h.widths n).sum % 8 = 0) (hz : ZeroOk (h.widths n) 0)
    (hl : (h.widths n).sum / 8 ≤ data.length) :
    ∃ h', h.extract data n = some h' ∧ h'.isValid = true ∧
      8 * h'.nbytesPacket = (h.widths n).sum ∧
      ∀ dst : Bytes, h'.nbytesPacket ≤ dst.length →
        h'.deparse dst = some (data.take h'.nbytesPacket ++ dst.drop h'.nbytesPacket) := by
  obtain ⟨h', e1, e2, e3, _, _, _, e7, e8, _, e10, e11⟩ := extract_spec hw data n hn h8 hz hl
  refine ⟨h', e1, by simp [isValid, e3], e7, ?_⟩
  intro dst hd
  obtain ⟨r, r1, r2, r3, r4⟩ := deparse_spec (fun f hf => (e10 f hf).1) e2.size dst hd
  rw [r1]
  congr 1
  rw [← List.take_append_drop h'.nbytesPacket r, r4]
  congr 1
  apply bytesBits_inj
  rw [r3, e11, bytesBits_take, e7]

/-- **C30**, emitting then extracting: if every visible field of `h` holds a number of its range
(see C31; a number out of range does not survive, `C30_refuted`), then emitting `h` and extracting it
into any header `g` of the same layout gives the same bytes in every field, and the same number in
every field that takes part in arithmetic.  Excluded again: an empty variable-length field that starts
inside a byte. -/
theorem C30_values_partial {h g : Header} (hw : h.WF) (gw : g.WF)
    (hv : ∀ f ∈ visible h.fields, Holds f) (n : Int) (hn : g.vlOffset ≠ none → 0 ≤ n)
    (hlay : g.widths n = (visible h.fields).map (·.nbits))
    (hsg : List.Forall₂ (fun f f' : Field => f'.isSigned = f.isSigned ∧ f'.isSaturating = f.isSaturating
      ∧ f'.arith = f.arith) (visible h.fields) (visible g.fields))
    (hz : ZeroOk (g.widths n) 0)
    (dst : Bytes) (hd : h.nbytesPacket ≤ dst.length) :
    ∃ r g', h.deparse dst = some r ∧ g.extract r n = some g' ∧
      (visible g'.fields).map (·.bytes) = (visible h.fields).map (·.bytes) ∧
      List.Forall₂ (fun f f' : Field => f.arith = true → f'.value = f.value)
        (visible h.fields) (visible g'.fields) := by
  have hsh : ∀ f ∈ visible h.fields, f.Shape := fun f hf =>
    hw.shape f ((List.takeWhile_prefix _).subset hf)
  have hpd : ∀ f ∈ visible h.fields, Padded f := fun f hf => (hv f hf).padded (hsh f hf)
  obtain ⟨r, r1, r2, r3, r4⟩ := deparse_spec hpd hw.size dst hd
  have hsum : (g.widths n).sum = 8 * h.nbytesPacket := by rw [hlay]; exact hw.size
  obtain ⟨g', e1, e2, e3, _, _, _, e7, e8, e9, e10, e11⟩ := extract_spec gw r n hn (by omega) hz
    (by rw [r2]; omega)
  refine ⟨r, g', r1, e1, ?_⟩
  have hsame : List.Forall₂ Same ((visible h.fields).map fun f => { f with hidden := false, vl := false })
      ((visible g'.fields).map fun f => { f with hidden := false, vl := false }) := by
    rw [hlay] at e8
    revert e8 e9 hsg
    generalize visible h.fields = A
    generalize visible g.fields = B
    generalize visible g'.fields = C
    intro h1 h2 h3
    induction h1 generalizing C with
    | nil => cases h3; exact List.Forall₂.nil
    | cons a _ ih =>
      cases h3 with
      | cons b b' =>
        rw [List.map_cons, List.map_cons] at h2 ⊢
        simp only [List.cons.injEq] at h2
        refine List.Forall₂.cons ⟨?_, ?_, rfl, rfl⟩ (ih _ h2.2 b')
        · unfold Field.kind
          simp only
          rw [b.1, b.2.1, a.1, a.2.1, h2.1]
        · simp only; rw [b.2.2.1, a.2.2]
  have hwire : (visible h.fields).flatMap fieldBits = (visible g'.fields).flatMap fieldBits := by
    change wire h.fields = wire g'.fields
    rw [e11, ← r3, bytesBits_take, hsum]
  have hbytes := bytes_of_wire hsame
    (by
      intro f hf
      obtain ⟨f0, h0, rfl⟩ := List.mem_map.1 hf
      have := hpd f0 h0
      exact ⟨⟨this.shape.nbytes, this.shape.len, this.shape.mask, this.shape.max, this.shape.min,
        this.shape.sgn⟩, this.pad⟩)
    (by
      intro f hf
      obtain ⟨f0, h0, rfl⟩ := List.mem_map.1 hf
      have := (e10 f0 h0).1
      exact ⟨⟨this.shape.nbytes, this.shape.len, this.shape.mask, this.shape.max, this.shape.min,
        this.shape.sgn⟩, this.pad⟩)
    (by rw [List.flatMap_map, List.flatMap_map]; exact hwire)
  rw [List.map_map, List.map_map] at hbytes
  have hbytes : (visible h.fields).map (·.bytes) = (visible g'.fields).map (·.bytes) := hbytes
  refine ⟨hbytes.symm, ?_⟩
  revert hsame hbytes hv e10 hsh
  clear hsg hlay e8 e9 hpd e11 r3 hwire
  generalize visible h.fields = A
  generalize visible g'.fields = C
  intro hv hsh e10 hsame hbytes
  induction A generalizing C with
  | nil =>
    cases C with
    | nil => exact List.Forall₂.nil
    | cons c C => cases hsame
  | cons f A ih =>
    cases C with
    | nil => cases hsame
    | cons f' C =>
      rw [List.map_cons, List.map_cons] at hsame hbytes
      simp only [List.cons.injEq] at hbytes
      cases hsame with
      | cons b b' =>
        refine List.Forall₂.cons ?_ (ih _ (fun x hx => hv x (by simp [hx]))
          (fun x hx => hsh x (by simp [hx])) (fun x hx => e10 x (by simp [hx])) b' hbytes.2)
        intro ha
        have hkind : f.kind = f'.kind := b.kind
        have hn : f.nbits = f'.nbits := congrArg Kind.w hkind
        have ha' : f'.arith = true := by rw [← show f.arith = f'.arith from b.arith]; exact ha
        have h1 := (e10 f' (by simp)).2 ha'
        have h2 := hv f (by simp)
        refine value_of_bytes (k := f.kind) (fun hs => (hsh f (by simp)).sgn hs) (l := f.bytes)
          (hkind ▸ h1.1) h2.fits ?_ h2.bytes
        have := h1.2
        rw [← hn, ← hbytes.1] at this
        exact this

/-- A header with fields of 4, 12, 1 and 7 bits (the last one signed). -/
def exHeader : Option Header :=
  mk' 0 none [⟨4, false, false, false, false, true⟩, ⟨12, false, false, false, false, true⟩,
    ⟨1, false, false, false, false, true⟩, ⟨7, true, false, false, false, true⟩, validInfo true] false

/-- Extracting and emitting it. -/
example : (exHeader.bind (·.extract [0xab, 0xcd, 0xef, 0x11] 0)).map
    (fun h => (h.fields.map (·.value), h.valid)) = some ([10, 0xbcd, 1, -17, 1], true) ∧
    (exHeader.bind (·.extract [0xab, 0xcd, 0xef, 0x11] 0)).bind (·.deparse [1, 2, 3, 4])
      = some [0xab, 0xcd, 0xef, 4] := by
  decide +kernel

/-- A header with a variable-length field between two fields of 8 bits. -/
example : ((mk' 0 (some 1) [⟨8, false, false, false, false, true⟩, ⟨0, false, false, true, false, true⟩,
    ⟨8, false, false, false, false, true⟩, validInfo true] false).bind (·.extract [1, 2, 3, 4] 16)).map
    (fun h => (h.fields.map (·.value), h.nbytesPacket)) = some ([1, 0x203, 4, 1], 4) := by
  decide +kernel

/-- The full claim fails for a number out of range (C31): 200 in an `int<8>` field comes back as -56. -/
theorem C30_refuted : ∃ (h h1 h2 : Header) (r : Bytes),
    mk' 0 none [⟨8, true, false, false, false, true⟩, validInfo true] false = some h ∧
    (∃ f f', h.fields[0]? = some f ∧ f.set false 200 = some f' ∧
      h1 = { h with fields := h.fields.set 0 f' }) ∧
    h1.deparse [0] = some r ∧ h1.extract r 0 = some h2 ∧
    (h1.fields.map (·.value)) = [200, 0] ∧ (h2.fields.map (·.value)) = [-56, 1] := by
  refine ⟨_, _, _, _, rfl, ⟨_, _, rfl, rfl, rfl⟩, rfl, rfl, ?_, ?_⟩ <;> decide +kernel

end Bm.Header
