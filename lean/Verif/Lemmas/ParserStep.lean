import Verif.Spec.ParserStep
import Verif.Lemmas.Deparser
import Verif.Props.ParseVSet

/-! # Lemmas about the steps of a parser program -/

namespace Bm.Parse

open Bm.Extract Bm.Header Bm.Spec

theorem flatMap_bits {α : Type} {g : α → List Bool} {w : α → Nat} : ∀ (l : List α) (i : Nat) (a : α),
    (∀ x ∈ l, (g x).length = w x) → l[i]? = some a →
    ((l.flatMap g).drop ((l.map w).take i).sum).take (w a) = g a
  | [], _, _, _, h => by simp at h
  | b :: l, 0, a, hl, h => by
    simp only [List.getElem?_cons_zero, Option.some.injEq] at h
    subst h
    simp [hl b (by simp)]
  | b :: l, i + 1, a, hl, h => by
    simp only [List.flatMap_cons, List.map_cons, List.take_succ_cons, List.sum_cons]
    rw [← hl b (by simp), ← List.drop_drop, List.drop_left]
    exact flatMap_bits l i a (fun x hx => hl x (by simp [hx])) (by simpa using h)

theorem fieldBits_length {f : Field} (h : f.Shape) : (fieldBits f).length = f.nbits := by
  unfold fieldBits
  rw [List.length_drop, bytesBits_length]
  have h1 := h.len
  have h2 := h.nbytes
  omega

theorem isBytesOf_bits {f : Field} {v : Int} (h : IsBytesOf f.nbits v f.bytes) :
    intBits f.nbits v = bitsOf f := by
  unfold bitsOf
  rw [h.2, List.drop_left' (by simp)]

theorem markValid_unionStacks {p q : Phv} {h : Nat} (e : p.markValid h = some q) : q.unionStacks = p.unionStacks := by
  have upd : ∀ {p q : Phv} {h : Nat} {f : Header → Option Header}, p.updHeader h f = some q →
      q.unionStacks = p.unionStacks := by
    intro p q h f e
    unfold Phv.updHeader at e
    simp only [Option.bind_eq_bind, Option.bind_eq_some_iff] at e
    obtain ⟨_, _, _, _, e⟩ := e
    cases e; rfl
  have inv : ∀ {p q : Phv} {h : Nat}, p.markInvalid h = some q → q.unionStacks = p.unionStacks := by
    intro p q h e
    unfold Phv.markInvalid at e
    simp only [Option.bind_eq_bind, Option.bind_eq_some_iff] at e
    obtain ⟨p1, e1, m, _, e⟩ := e
    cases m with
    | none => cases e; exact upd e1
    | some ui =>
      simp only [Phv.makeHeaderInvalid, Option.bind_eq_bind, Option.bind_eq_some_iff] at e
      obtain ⟨un, hun, e⟩ := e
      cases e
      show p1.unionStacks = _
      exact upd e1
  unfold Phv.markValid at e
  simp only [Option.bind_eq_bind, Option.bind_eq_some_iff] at e
  obtain ⟨p1, e1, m, _, e⟩ := e
  cases m with
  | none => cases e; exact upd e1
  | some ui =>
    simp only [Phv.makeHeaderValid, Option.bind_eq_bind, Option.bind_eq_some_iff] at e
    obtain ⟨un, _, p2, e2, un2, hun2, e⟩ := e
    cases e
    show p2.unionStacks = _
    refine Eq.trans ?_ (upd e1)
    unfold Phv.invalidateOther at e2
    split at e2
    · simp only [Option.bind_eq_bind, Option.bind_eq_some_iff] at e2
      obtain ⟨_, _, e2⟩ := e2
      exact inv e2
    · cases e2; rfl

/-- Extraction of a header, in terms of bits. -/
theorem phvExtract_bits {p q : Phv} {h : Nat} {data : Bytes} {n : Int} {x : Header} (hi : Phv.Inv p)
    (hw : NWF p) (hx : p.headers[h]? = some x) (hm : x.metadata = false) (hr : Regular x) (hn : 0 ≤ n)
    (h8 : n % 8 = 0) (hl : (x.widths n).sum / 8 ≤ data.length) (e : p.extract h data n = some q) :
    ∃ y, q.headers[h]? = some y ∧ y.isValid = true ∧ y.metadata = false ∧ 8 * y.nbytesPacket = (x.widths n).sum ∧
      (visible y.fields).map (·.nbits) = x.widths n ∧
      (∀ (i : Nat) (f : Field), (visible y.fields)[i]? = some f →
        bitsOf f = ((bytesBits data).drop ((x.widths n).take i).sum).take f.nbits) ∧
      (∀ f ∈ visible y.fields, f.arith = true → f.kind.Fits f.value ∧ intBits f.nbits f.value = bitsOf f) ∧
      Phv.Inv q ∧ NWF q ∧ q.hstacks = p.hstacks ∧ q.unionStacks = p.unionStacks := by
  unfold Phv.extract at e
  simp only [Option.bind_eq_bind, Option.bind_eq_some_iff] at e
  obtain ⟨p1, e1, e⟩ := e
  obtain ⟨x', y, hx', hy, rfl⟩ := updHeader_spec e1
  rw [hx] at hx'
  cases hx'
  obtain ⟨y', a1, a2, a3, a4, a5, a6, a7, a8, a9, a10, a11⟩ := extract_spec hr.wf data n (fun _ => hn)
    (hr.bytes n hn h8) (hr.zero n) hl
  rw [hy] at a1
  cases a1
  have hlt := (List.getElem?_eq_some_iff.1 hx).1
  have hy1 : (p.headers.set h y)[h]? = some y := by simp [hlt]
  have hw1 : NWF { p with headers := p.headers.set h y } := by
    intro g z hz hzm
    by_cases hg : h = g
    · subst hg
      simp only [hy1] at hz
      cases hz
      exact a2
    · simp only [List.getElem?_set_ne hg] at hz
      exact hw g z hz hzm
  have hi1 : Phv.InvX (some h) { p with headers := p.headers.set h y } :=
    Phv.InvX.setHeader hi (.inl rfl) hx a4
  obtain ⟨u, l2⟩ := markValid_unmod hw1 e
  obtain ⟨hi2, hs2, hv2⟩ := Phv.markValid_inv hi1 (.inr rfl) e
  obtain ⟨z, hz, hzm, za⟩ := u h y hy1
  have za := za (a4.trans hm)
  have hzv : z.valid = true := by
    simp only [Phv.hv, hz, Option.map_some, Option.some.injEq] at hv2
    exact hv2
  refine ⟨z, hz, by simp [isValid, hzv], hzm.trans (a4.trans hm), by rw [za.size]; exact a7, by rw [za.fields]; exact a8, ?_, ?_, hi2,
    hw1.of u (by omega), ?_, ?_⟩
  · intro i f hf
    rw [za.fields] at hf
    have hwire := flatMap_bits (g := fieldBits) (w := (·.nbits)) (visible y.fields) i f
      (fun g hg => fieldBits_length (a10 g hg).1.shape) hf
    rw [a8] at hwire
    change ((wire y.fields).drop _).take _ = _ at hwire
    rw [a11] at hwire
    change fieldBits f = _
    rw [← hwire, List.drop_take, List.take_take]
    congr 1
    have hfn : (x.widths n)[i]? = some f.nbits := by rw [← a8]; simp [hf]
    have : ((x.widths n).take i).sum + f.nbits ≤ (x.widths n).sum := by
      clear hwire a8 a7 a11 hl e1 hy hf
      generalize x.widths n = ws at hfn
      induction ws generalizing i with
      | nil => simp at hfn
      | cons w ws ih =>
        cases i with
        | zero => simp at hfn; simp [hfn]
        | succ i =>
          have := ih i (by simpa using hfn)
          simp only [List.take_succ_cons, List.sum_cons]
          omega
    omega
  · intro f hf ha
    rw [za.fields] at hf
    obtain ⟨b1, b2⟩ := (a10 f hf).2 ha
    exact ⟨b1, isBytesOf_bits b2⟩
  · exact (markValid_hstacks e).trans rfl
  · exact (markValid_unionStacks e).trans rfl

variable {pkt : Pkt} {st st' : St}

/-- What is needed of the state. -/
structure Ready (pkt : Pkt) (st : St) : Prop where
  inv : Phv.Inv st.phv
  wf : NWF st.phv
  pos : st.pos ≤ pkt.size
  size : pkt.size ≤ pkt.mem.length

theorem got_of (rd : Ready pkt st) {h : Nat} {x : Header} {n : Int} {q : Phv}
    (hx : st.phv.headers[h]? = some x) (hm : x.metadata = false) (hr : Regular x) (hn : 0 ≤ n)
    (h8 : n % 8 = 0) (hl : (x.widths n).sum / 8 ≤ pkt.size - st.pos)
    (e : st.phv.extract h (pkt.mem.drop st.pos) n = some q) {m : Nat} (hm' : nbytes q h = some m) :
    ∃ y, Got pkt st ⟨q, st.pos + m, st.trace ++ [h]⟩ h (x.widths n) y ∧ Phv.Inv q ∧ NWF q ∧
      q.hstacks = st.phv.hstacks ∧ q.unionStacks = st.phv.unionStacks := by
  have hsz := rd.size
  obtain ⟨y, h1, h2, h0, h3, h4, h5, h6, h7⟩ := phvExtract_bits rd.inv rd.wf hx hm hr hn h8
    (by rw [List.length_drop]; omega) e
  refine ⟨y, ⟨h1, h2, h0, ?_, h4, ?_, h6⟩, h7⟩
  · simp only [nbytes, h1, Option.bind_eq_bind, Option.bind_some, Option.pure_def,
      Option.some.injEq] at hm'
    simp only
    omega
  · intro i f hf
    rw [h5 i f hf, bitsAt, bytesBits_drop, List.drop_drop]

theorem extractFixed_got (rd : Ready pkt st) {h : Nat} {len : Phv → Option Int} {x : Header}
    (hx : st.phv.headers[h]? = some x) (hm : x.metadata = false) (hr : Regular x) (hv : x.vlOffset = none)
    (e : extractFixed pkt st h len = some (st', none)) :
    ∃ y, Got pkt st st' h (x.widths 0) y ∧ Phv.Inv st'.phv ∧ NWF st'.phv ∧
      st'.phv.hstacks = st.phv.hstacks ∧ st'.phv.unionStacks = st.phv.unionStacks := by
  unfold extractFixed at e
  simp only [nbytes, hx, Option.bind_eq_bind, Option.bind_some, Option.pure_def, left_eq rd.pos] at e
  split at e
  · cases e
  · rename_i hlt
    obtain ⟨q, hq, e⟩ := Option.bind_eq_some_iff.1 e
    obtain ⟨m', hm', e⟩ := Option.bind_eq_some_iff.1 e
    cases e
    unfold extractHdr at hq
    simp only [hx, hv, Option.bind_eq_bind, Option.bind_some] at hq
    refine got_of rd hx hm hr (by omega) (by omega) ?_ hq hm'
    have hsz := hr.wf.size
    have := widths_le x 0
    omega

theorem toSize_some {n : Int} {t : Nat} (h0 : 0 ≤ n) (h : toSize n = some t) : t = n.toNat := by
  unfold toSize at h
  split at h
  · cases h
  · rw [if_neg (by omega)] at h
    cases h
    rfl

theorem extractVar_got (rd : Ready pkt st) {h : Nat} {len : Phv → Option Int} {max : Nat} {x : Header}
    (hx : st.phv.headers[h]? = some x) (hm : x.metadata = false) (hr : Regular x)
    (e : extractVar pkt st h len max = some (st', none)) :
    ∃ n y, len st.phv = some n ∧ 0 ≤ n ∧ Got pkt st st' h (x.widths n) y ∧ Phv.Inv st'.phv ∧ NWF st'.phv ∧
      st'.phv.hstacks = st.phv.hstacks ∧ st'.phv.unionStacks = st.phv.unionStacks := by
  unfold extractVar at e
  simp only [Option.bind_eq_bind, Option.pure_def] at e
  obtain ⟨n, hn, e⟩ := Option.bind_eq_some_iff.1 e
  split at e
  · cases e
  · rename_i h8
    obtain ⟨m, hm1, e⟩ := Option.bind_eq_some_iff.1 e
    obtain ⟨t, ht, e⟩ := Option.bind_eq_some_iff.1 e
    rw [left_eq rd.pos] at e
    split at e
    · cases e
    · rename_i hlt
      split at e
      · cases e
      · split at e
        · cases e
        · rename_i h0
          obtain ⟨q, hq, e⟩ := Option.bind_eq_some_iff.1 e
          obtain ⟨m', hm', e⟩ := Option.bind_eq_some_iff.1 e
          cases e
          simp only [nbytes, hx, Option.bind_eq_bind, Option.bind_some, Option.pure_def,
            Option.some.injEq] at hm1
          have hsz := hr.wf.size
          have := widths_le x n
          have ht := toSize_some (by omega) ht
          obtain ⟨y, hy⟩ := got_of rd hx hm hr (by omega) (by omega) (by omega) hq hm'
          exact ⟨n, y, hn, by omega, hy⟩

theorem extractNext_got (rd : Ready pkt st) {h : Nat} {len : Phv → Option Int} {max : Nat} {x : Header}
    (hx : st.phv.headers[h]? = some x) (hm : x.metadata = false) (hr : Regular x)
    (hv : max = 0 → x.vlOffset = none) (e : extractNext pkt st h len max = some (st', none)) :
    ∃ n y, (max ≠ 0 → len st.phv = some n ∧ 0 ≤ n) ∧ Got pkt st st' h (x.widths n) y ∧ Phv.Inv st'.phv ∧
      NWF st'.phv ∧ st'.phv.hstacks = st.phv.hstacks ∧ st'.phv.unionStacks = st.phv.unionStacks := by
  unfold extractNext at e
  split at e
  · rename_i h0
    obtain ⟨y, hy⟩ := extractFixed_got rd hx hm hr (hv h0) e
    exact ⟨0, y, fun h => absurd h0 h, hy⟩
  · obtain ⟨n, y, h1, h2, hy⟩ := extractVar_got rd hx hm hr e
    exact ⟨n, y, fun _ => ⟨h1, h2⟩, hy⟩

theorem pushStack_got {s h : Nat} {stk : Stack} (hs : st'.phv.hstacks[s]? = some stk)
    (hlt : stk.next < stk.elements.length) (hh : stk.elements[stk.next]? = some h) (hi : Phv.Inv st'.phv)
    (hw : NWF st'.phv) {ws : List Nat} {y : Header} (hy : Got pkt st st' h ws y)
    {st2 : St} (e : pushStack s (st', none) = some (st2, none)) :
    ∃ z, Got pkt st st2 h ws z ∧ Phv.Inv st2.phv ∧
      st2.phv.hstacks = st'.phv.hstacks.set s { stk with next := stk.next + 1 } := by
  simp only [pushStack, hs, Stack.pushBack, if_neg (Nat.ne_of_lt hlt), hh, Option.bind_eq_bind,
    Option.bind_some, Phv.headerOps] at e
  obtain ⟨⟨_, b, q⟩, hq, e⟩ := Option.bind_eq_some_iff.1 e
  obtain ⟨q', hq', hq2⟩ := Option.bind_eq_some_iff.1 hq
  cases hq2
  cases e
  obtain ⟨hi2, hs2, hv2⟩ := Phv.markValid_inv hi (.inl rfl) hq'
  obtain ⟨u, l2⟩ := markValid_unmod hw hq'
  obtain ⟨z, hz, hzm, za⟩ := u h y hy.found
  have za := za hy.nometa
  have hzv : z.valid = true := by
    simp only [Phv.hv, hz, Option.map_some, Option.some.injEq] at hv2
    exact hv2
  have hst := markValid_hstacks hq'
  refine ⟨z, ⟨hz, by simp [isValid, hzv], hzm.trans hy.nometa, hy.pos, by rw [za.fields]; exact hy.widths,
    by rw [za.fields]; exact hy.bits, by rw [za.fields]; exact hy.value⟩, ?_, by simp only [hst]⟩
  refine (hi2.stacks ?_ rfl).1
  simp only [List.map_set]
  rw [hst]
  refine List.ext_getElem? fun i => ?_
  by_cases hi : s = i
  · subst hi
    have := (List.getElem?_eq_some_iff.1 hs).1
    have h1 : st'.phv.hstacks[s] = stk := (List.getElem?_eq_some_iff.1 hs).2
    simp [this, h1]
  · rw [List.getElem?_set_ne hi]

theorem mapM_parts {p : Phv} {d : Bytes} : ∀ {es : List KeyEntry} {parts : List Bytes},
    List.Forall₂ (fun e b => e.bytes p d = some b) es parts → es.mapM (·.bytes p d) = some parts
  | [], _, h => by cases h; rfl
  | e :: es, _, h => by
    cases h with
    | cons h1 h2 =>
      rw [List.mapM_cons, h1, mapM_parts h2]
      rfl

theorem keyPart_bytes {e : KeyEntry} {b : Bytes} (h : KeyPart pkt st e b) :
    e.bytes st.phv (pkt.mem.drop st.pos) = some b := by
  cases h with
  | field h f x fd h1 h2 => simp [KeyEntry.bytes, fieldBytes, h1, h2]
  | stackField s f n h stk x fd h1 h2 h3 h4 h5 =>
    simp [KeyEntry.bytes, fieldBytes, last, h1, h2, h3, h4, h5]
  | unionStackField s i f n u h stk un x fd h1 h2 h3 h4 h5 h6 h7 =>
    simp [KeyEntry.bytes, fieldBytes, last, h1, h2, h3, h4, h5, h6, h7]
  | lookahead off w b hw hl hlen hb =>
    obtain ⟨dst, h1, h2, h3⟩ := genericExtract_spec ((pkt.mem.drop st.pos).drop (off / 8)) (off % 8) w
      (Nat.mod_lt _ (by omega)) (.inr (by omega)) (by simp only [List.length_drop]; omega)
    simp only [KeyEntry.bytes, LookAhead.peek, LookAhead.make, h1, Option.some.injEq]
    apply bytesBits_inj
    rw [h3, hb, bitsAt, bytesBits_drop, bytesBits_drop, List.drop_drop, List.drop_drop]
    congr 4
    omega

theorem hit_matches {key : Bytes} {c : Case} {b : Bool} (h : c.Hit key b) : c.matches key = some b := by
  cases h with
  | eq k n h => simp [Case.matches, (VSet.C39_constant k key).1.2 h]
  | ne k n h =>
    have : VSet.caseMatch k key = false := by
      rw [Bool.eq_false_iff]
      exact fun hc => h ((VSet.C39_constant k key).1.1 hc)
    simp [Case.matches, this]
  | eqMask k m n h1 h2 h3 =>
    obtain ⟨k', b, e1, e2, e3⟩ := (VSet.C39_constant k key).2 m h1 h2
    simp [Case.matches, e1, e2, e3.2 h3]
  | neMask k m n h1 h2 h3 =>
    obtain ⟨k', b, e1, e2, e3⟩ := (VSet.C39_constant k key).2 m h1 h2
    have : b = false := by
      rw [Bool.eq_false_iff]
      exact fun hc => h3 (e3.1 hc)
    simp [Case.matches, e1, e2, this]
  | vset s n b h => simpa [Case.matches] using h

theorem choose_first {key : Bytes} {d : Option Nat} : ∀ {cs : List Case} {i : Nat} {c : Case},
    cs[i]? = some c → c.Hit key true → (∀ (j : Nat) (c' : Case), j < i → cs[j]? = some c' → c'.Hit key false) →
    choose key d cs = some c.next
  | [], _, _, h, _, _ => by simp at h
  | c0 :: cs, 0, c, h, h1, _ => by
    simp only [List.getElem?_cons_zero, Option.some.injEq] at h
    subst h
    simp [choose, hit_matches h1]
  | c0 :: cs, i + 1, c, h, h1, h2 => by
    have h0 := hit_matches (h2 0 c0 (by omega) (by simp))
    simp only [choose, h0, Option.bind_eq_bind, Option.bind_some]
    exact choose_first (by simpa using h) h1 fun j c' hj hc => h2 (j + 1) c' (by omega) (by simpa using hc)

theorem choose_default {key : Bytes} {d : Option Nat} : ∀ {cs : List Case},
    (∀ c ∈ cs, c.Hit key false) → choose key d cs = some d
  | [], _ => rfl
  | c :: cs, h => by
    simp only [choose, hit_matches (h c (by simp)), Option.bind_eq_bind, Option.bind_some]
    exact choose_default fun c' hc => h c' (by simp [hc])

end Bm.Parse
