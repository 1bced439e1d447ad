import Verif.Lemmas.StackHeader
import Verif.Props.Union

/-!
# Header stacks

C32.  What is seen at a position of a stack is the contents of the header there if it is valid, and
nothing otherwise.  With P4-16 stacks (`StackP4_16`), `push_front(n)` and `pop_front(n)` shift what is
seen by `n`, filling up with invalid positions, and move `next` by `n` within bounds.  Legacy stacks
only touch the part in use and mark pushed headers valid, as the comment in the code says
(`/repo/include/bm/bm_sim/stacks.h:153-155`); they shift too, provided the counter is the number of
valid headers, and keep that so.

For stacks of unions the shift is proved but the positions that are vacated are not invalidated
(`HeaderUnion::mark_invalid` does nothing, `/repo/include/bm/bm_sim/header_unions.h:95-97`):
`C32_union_pop_refuted`.  `push_front(n)` adds `n` to the counter without looking for overflow:
`C32_push_wrap_refuted`.
-/

namespace Bm.Phv

open Bm.Stack

/-- What is in a valid header: the visible fields and its length in the packet. -/
abbrev Contents := List Field × Nat

/-- What is seen of a header. -/
def seenOf (x : Option Header) : Option Contents :=
  x.bind fun x => if x.valid then some (Header.visible x.fields, x.nbytesPacket) else none

/-- What is seen at the positions of a stack. -/
def seen (p : Phv) (st : Stack) : List (Option Contents) := st.elements.map fun h => seenOf p.headers[h]?

/-- A stack as the configuration makes it: at least one header, all different, of one type, members of
no union; the counter does not exceed the size. -/
structure StackOk (p : Phv) (st : Stack) : Prop where
  nonempty : st.elements ≠ []
  nodup : st.elements.Nodup
  elems : ∃ t, Elems t st.elements p
  next : st.next ≤ st.elements.length

theorem seen_eq (p : Phv) (st : Stack) : seen p st = (view hget st.elements p).map seenOf := by
  simp [seen, view, hget, Function.comp_def]

theorem seenOf_invalid {t : Header} (x : Option Header) (h : ∀ y, x = some y → Inst t y) :
    seenOf (x.bind Header.markInvalid) = none := by
  cases x with
  | none => rfl
  | some y =>
    obtain ⟨z, h1, _, h3, _⟩ := (h y rfl).setValidField false 0
    simp only [Option.bind_some, Header.markInvalid, h1, seenOf, h3]
    rfl

theorem mem_inst {t : Header} {p : Phv} {st : Stack} (h : Elems t st.elements p) :
    ∀ x ∈ view hget st.elements p, ∃ y, x = some y ∧ Inst t y := by
  intro x hx
  obtain ⟨a, ha, rfl⟩ := List.mem_map.1 hx
  obtain ⟨⟨y, h1, h2⟩, _⟩ := h a ha
  exact ⟨y, h1, h2⟩

/-- Invalidating anything leaves nothing to see: a header that does exist can be invalidated, so what
is seen at a position that was invalidated is nothing. -/
theorem map_seenOf_invalid (Z : List (Option Header))
    (h : ∀ x ∈ Z.map (·.bind Header.markInvalid), ∃ y, x = some y) :
    (Z.map (·.bind Header.markInvalid)).map seenOf = List.replicate Z.length none := by
  induction Z with
  | nil => rfl
  | cons x Z ih =>
    simp only [List.map_cons, List.length_cons, List.replicate_succ]
    rw [ih (fun y hy => h y (by simp only [List.map_cons, List.mem_cons]; exact Or.inr hy))]
    congr 1
    obtain ⟨y, hy⟩ := h _ (by simp only [List.map_cons, List.mem_cons]; exact Or.inl rfl)
    rw [hy]
    cases x with
    | none => cases hy
    | some x =>
      simp only [Option.bind_some, Header.markInvalid] at hy
      have := (setValidField_flags hy).1
      simp only at this
      simp [seenOf, this]

theorem map_seenOf_valid (Z : List (Option Header))
    (h : ∀ x ∈ Z.map (·.bind Header.markValid), ∃ y, x = some y) :
    ∀ s ∈ (Z.map (·.bind Header.markValid)).map seenOf, s.isSome = true := by
  intro s hs
  obtain ⟨x, hx, rfl⟩ := List.mem_map.1 hs
  obtain ⟨y, rfl⟩ := h x hx
  obtain ⟨z, _, hz⟩ := List.mem_map.1 hx
  cases z with
  | none => cases hz
  | some z =>
    simp only [Option.bind_some, Header.markValid] at hz
    have := (setValidField_flags hz).1
    simp only at this
    simp [seenOf, this]

/-- Every other header is untouched. -/
def Frame (p p' : Phv) (st : Stack) : Prop := ∀ h, h ∉ st.elements → p'.headers[h]? = p.headers[h]?

/-- **C32**, P4-16 stacks, `pop_front(n)` for every `n`. -/
theorem C32_p416_pop_front {p : Phv} {st : Stack} (ok : StackOk p st) (n : Nat) :
    ∃ p' st', st.popFrontP416 headerOps n p = some (min n st.elements.length, st', p') ∧
      seen p' st' = (seen p st).drop n ++ List.replicate (min n st.elements.length) none ∧
      st'.next = st.next - n ∧ st'.elements = st.elements ∧ StackOk p' st' ∧ Frame p p' st := by
  obtain ⟨t, he⟩ := ok.elems
  obtain ⟨p', Z, r, I, hz, hv, hf⟩ := popFrontP416_spec (header_laws t st.elements) ok.nodup rfl n he
  refine ⟨p', _, r, ?_, by simp only; omega, rfl,
    ⟨ok.nonempty, ok.nodup, ⟨t, I⟩, by have := ok.next; simp only; omega⟩, hf⟩
  rw [seen_eq, seen_eq]
  simp only
  rw [hv, List.map_append, List.map_drop, map_seenOf_invalid, hz]
  intro x hx
  obtain ⟨y, hy, _⟩ := mem_inst (st := st) I x (by rw [hv]; exact List.mem_append_right _ hx)
  exact ⟨y, hy⟩

/-- **C32**, P4-16 stacks, `push_front(n)`.  The hypothesis excludes numbers close to `2^64`, see
`C32_push_wrap_refuted`. -/
theorem C32_p416_push_front_partial {p : Phv} {st : Stack} (ok : StackOk p st) (n : Nat)
    (hov : st.next + n < 2 ^ 64) :
    ∃ p' st', st.pushFrontP416 headerOps n p = some (min n st.elements.length, st', p') ∧
      seen p' st' = List.replicate (min n st.elements.length) none
        ++ (seen p st).take (st.elements.length - n) ∧
      st'.next = min st.elements.length (st.next + n) ∧ st'.elements = st.elements ∧ StackOk p' st' ∧
      Frame p p' st := by
  obtain ⟨t, he⟩ := ok.elems
  obtain ⟨p', Z, r, I, hz, hv, hf⟩ := pushFrontP416_spec (header_laws t st.elements) ok.nodup rfl
    (List.length_pos_of_ne_nil ok.nonempty) ok.next n hov he
  refine ⟨p', { st with next := min st.elements.length (st.next + n) }, by rw [r, Nat.min_comm n], ?_, rfl, rfl,
    ⟨ok.nonempty, ok.nodup, ⟨t, I⟩, by simp only; omega⟩, hf⟩
  rw [seen_eq, seen_eq]
  simp only
  rw [hv, List.map_append, List.map_take, map_seenOf_invalid, hz, Nat.min_comm]
  intro x hx
  obtain ⟨y, hy, _⟩ := mem_inst (st := st) I x (by rw [hv]; exact List.mem_append_left _ hx)
  exact ⟨y, hy⟩

/-- The variants without an argument are those with argument 1. -/
theorem C32_single_step (p : Phv) {st : Stack} (ok : StackOk p st)
    (hl : st.elements.length + 1 < 2 ^ 64) :
    st.popFrontP416_1 headerOps p = st.popFrontP416 headerOps 1 p ∧
    st.pushFrontP416_1 headerOps p = st.pushFrontP416 headerOps 1 p ∧
    st.popFrontLegacy1 headerOps p = st.popFrontLegacy headerOps 1 p ∧
    st.pushFrontLegacy1 headerOps p = st.pushFrontLegacy headerOps 1 p :=
  ⟨popFrontP416_1_eq st ok.nonempty p, pushFrontP416_1_eq st ok.next hl p, popFrontLegacy1_eq st p,
    pushFrontLegacy1_eq st ok.next hl p⟩

/-- The counter is the number of valid headers, which are in front. -/
def Counted (p : Phv) (st : Stack) : Prop :=
  ∀ (i : Nat) (s : Option Contents), (seen p st)[i]? = some s → (s.isSome = true ↔ i < st.next)

theorem Counted.drop_next {p : Phv} {st : Stack} (c : Counted p st) (k : Nat) (hk : st.next ≤ k) :
    (seen p st).drop k = List.replicate (st.elements.length - k) none := by
  have hl : (seen p st).length = st.elements.length := by simp [seen]
  apply List.eq_replicate_iff.2
  refine ⟨by rw [List.length_drop, hl], ?_⟩
  intro s hs
  obtain ⟨i, hi⟩ := List.mem_iff_getElem?.1 hs
  rw [List.getElem?_drop] at hi
  have := c (k + i) s hi
  cases s with
  | none => rfl
  | some s => simp at this; omega

/-- **C32**, legacy stacks, `pop_front(n)`: the part in use is shifted, and the popped positions are
invalid. -/
theorem C32_legacy_pop_front {p : Phv} {st : Stack} (ok : StackOk p st) (n : Nat) :
    ∃ p' st', st.popFrontLegacy headerOps n p = some (min n st.next, st', p') ∧
      seen p' st' = ((seen p st).take st.next).drop n ++ List.replicate (min n st.next) none
        ++ (seen p st).drop st.next ∧
      st'.next = st.next - n ∧ st'.elements = st.elements ∧ StackOk p' st' ∧ Frame p p' st := by
  obtain ⟨t, he⟩ := ok.elems
  obtain ⟨p', Z, r, I, hz, hv, hf⟩ := popFrontLegacy_spec (header_laws t st.elements) ok.nodup rfl
    ok.next n he
  refine ⟨p', { st with next := st.next - min st.next n }, by rw [r, Nat.min_comm n], ?_,
    by simp only; omega, rfl,
    ⟨ok.nonempty, ok.nodup, ⟨t, I⟩, by have := ok.next; simp only; omega⟩, hf⟩
  rw [seen_eq, seen_eq]
  simp only
  rw [hv, List.map_append, List.map_append, List.map_drop, List.map_take, List.map_drop,
    map_seenOf_invalid, hz, Nat.min_comm]
  intro x hx
  obtain ⟨y, hy, _⟩ := mem_inst (st := st) I x
    (by rw [hv]; exact List.mem_append_left _ (List.mem_append_right _ hx))
  exact ⟨y, hy⟩

/-- **C32**, legacy stacks, `push_front(n)`: the part in use is shifted, and what is pushed is valid. -/
theorem C32_legacy_push_front_partial {p : Phv} {st : Stack} (ok : StackOk p st) (n : Nat)
    (hov : st.next + n < 2 ^ 64) :
    ∃ p' st' new, st.pushFrontLegacy headerOps n p = some (min n st.elements.length, st', p') ∧
      seen p' st' = new ++ (seen p st).take (st'.next - n) ++ (seen p st).drop st'.next ∧
      new.length = min n st.elements.length ∧ (∀ s ∈ new, s.isSome = true) ∧
      st'.next = min st.elements.length (st.next + n) ∧ st'.elements = st.elements ∧ StackOk p' st' ∧
      Frame p p' st := by
  obtain ⟨t, he⟩ := ok.elems
  obtain ⟨p', Z, r, I, hz, hv, hf⟩ := pushFrontLegacy_spec (header_laws t st.elements) ok.nodup rfl
    (List.length_pos_of_ne_nil ok.nonempty) ok.next n hov he
  refine ⟨p', { st with next := min st.elements.length (st.next + n) },
    (Z.map (·.bind Header.markValid)).map seenOf, by rw [r, Nat.min_comm n], ?_, ?_, ?_,
    rfl, rfl, ⟨ok.nonempty, ok.nodup, ⟨t, I⟩, by simp only; omega⟩, hf⟩
  · rw [seen_eq, seen_eq]
    simp only
    rw [hv, List.map_append, List.map_append, List.map_take, List.map_drop]
  · simp [hz, Nat.min_comm]
  · apply map_seenOf_valid
    intro x hx
    obtain ⟨y, hy, _⟩ := mem_inst (st := st) I x
      (by rw [hv]; exact List.mem_append_left _ (List.mem_append_left _ hx))
    exact ⟨y, hy⟩

/-- On a stack whose counter is right, legacy `pop_front` is the same shift, and the counter stays
right. -/
theorem C32_legacy_pop_counted {p : Phv} {st : Stack} (ok : StackOk p st) (c : Counted p st) (n : Nat) :
    ∃ p' st', st.popFrontLegacy headerOps n p = some (min n st.next, st', p') ∧
      seen p' st' = (seen p st).drop n ++ List.replicate (min n st.elements.length) none ∧
      Counted p' st' := by
  obtain ⟨p', st', r, hs, hn, he, _, _⟩ := C32_legacy_pop_front ok n
  have hl : (seen p st).length = st.elements.length := by simp [seen]
  have hnx := ok.next
  have hsplit : (seen p st) = (seen p st).take st.next ++ List.replicate (st.elements.length - st.next) none := by
    conv_lhs => rw [← List.take_append_drop st.next (seen p st)]
    rw [c.drop_next _ (Nat.le_refl _)]
  have hfull : seen p' st' = (seen p st).drop n ++ List.replicate (min n st.elements.length) none := by
    rw [hs, c.drop_next _ (Nat.le_refl _), List.append_assoc, List.replicate_append_replicate]
    conv_rhs => rw [hsplit]
    rw [List.drop_append, List.drop_replicate, List.append_assoc, List.replicate_append_replicate]
    congr 2
    rw [List.length_take, hl]
    omega
  refine ⟨p', st', r, hfull, ?_⟩
  intro i s hi
  rw [hfull] at hi
  rw [hn]
  by_cases h : i < st.elements.length - n
  · rw [List.getElem?_append_left (by rw [List.length_drop, hl]; exact h), List.getElem?_drop] at hi
    rw [c _ _ hi]
    omega
  · rw [List.getElem?_append_right (by rw [List.length_drop, hl]; omega)] at hi
    have := List.mem_of_getElem? hi
    rw [List.mem_replicate] at this
    rw [this.2]
    simp only [Option.isSome_none, Bool.false_eq_true, false_iff]
    omega

/-- On a stack whose counter is right, legacy `push_front` is the same shift but for the validity of
what is pushed, and the counter stays right. -/
theorem C32_legacy_push_counted_partial {p : Phv} {st : Stack} (ok : StackOk p st) (c : Counted p st)
    (n : Nat) (hov : st.next + n < 2 ^ 64) :
    ∃ p' st' new, st.pushFrontLegacy headerOps n p = some (min n st.elements.length, st', p') ∧
      seen p' st' = new ++ (seen p st).take (st.elements.length - n) ∧
      new.length = min n st.elements.length ∧ (∀ s ∈ new, s.isSome = true) ∧ Counted p' st' := by
  obtain ⟨p', st', new, r, hs, h1, h2, hn, he, _, _⟩ := C32_legacy_push_front_partial ok n hov
  have hl : (seen p st).length = st.elements.length := by simp [seen]
  have hnx := ok.next
  have hfull : seen p' st' = new ++ (seen p st).take (st.elements.length - n) := by
    rw [hs, List.append_assoc]
    congr 1
    rw [hn]
    by_cases h : st.next + n ≤ st.elements.length
    · rw [Nat.min_eq_right h, c.drop_next _ (by omega)]
      have e : st.elements.length - n = st.next + (st.elements.length - n - st.next) := by omega
      rw [Nat.add_sub_cancel, e, List.take_add, c.drop_next _ (Nat.le_refl _), List.take_replicate]
      congr 2
      omega
    · rw [Nat.min_eq_left (by omega), List.drop_eq_nil_of_le (by omega), List.append_nil]
  refine ⟨p', st', new, r, hfull, h1, h2, ?_⟩
  intro i s hi
  rw [hfull] at hi
  rw [hn]
  have hlt : i < st.elements.length := by
    have := (List.getElem?_eq_some_iff.1 hi).1
    rw [List.length_append, List.length_take, hl, h1] at this
    omega
  by_cases h : i < new.length
  · rw [List.getElem?_append_left h] at hi
    have := h2 s (List.mem_of_getElem? hi)
    simp only [this, true_iff]
    omega
  · rw [List.getElem?_append_right (by omega), List.getElem?_take] at hi
    split at hi
    · rw [c _ _ hi]
      omega
    · cases hi

/-- **C32**, `pop_back`: the last header in use becomes invalid, nothing else changes. -/
theorem C32_pop_back {p : Phv} {st : Stack} (ok : StackOk p st) (h0 : 0 < st.next) :
    ∃ p', st.popBack headerOps p = some (1, { st with next := st.next - 1 }, p') ∧
      seen p' st = (seen p st).set (st.next - 1) none ∧ Frame p p' st := by
  obtain ⟨t, he⟩ := ok.elems
  have hlt : st.next - 1 < st.elements.length := by have := ok.next; omega
  obtain ⟨p', r, I, h1, h2⟩ := (header_laws t st.elements).markInvalid p st.elements[st.next - 1] he
    (List.getElem_mem hlt)
  refine ⟨p', ?_, ?_, fun h hh => h2 h (fun e => hh (e ▸ List.getElem_mem hlt))⟩
  · simp only [popBack, if_neg (show ¬ st.next = 0 by omega), List.getElem?_eq_getElem hlt,
      Option.bind_eq_bind, Option.bind_some, r]
    rfl
  · apply List.ext_getElem?
    intro i
    by_cases hi : st.next - 1 = i
    · subst hi
      rw [List.getElem?_set_self (by simpa [seen] using hlt)]
      simp only [seen, List.getElem?_map, List.getElem?_eq_getElem hlt, Option.map_some]
      have h1' : p'.headers[st.elements[st.next - 1]]? = _ := h1
      rw [h1']
      congr 1
      apply seenOf_invalid (t := t)
      intro y hy
      obtain ⟨⟨z, e1, e2⟩, _⟩ := he _ (List.getElem_mem hlt)
      have hy' : p.headers[st.elements[st.next - 1]]? = some y := hy
      rw [e1] at hy'
      cases hy'
      exact e2
    · rw [List.getElem?_set_ne hi]
      simp only [seen, List.getElem?_map]
      cases e : st.elements[i]? with
      | none => rfl
      | some a =>
        simp only [Option.map_some]
        obtain ⟨hil, e'⟩ := List.getElem?_eq_some_iff.1 e
        have : a ≠ st.elements[st.next - 1] := by
          intro c
          rw [← e'] at c
          exact hi ((List.Nodup.getElem_inj_iff ok.nodup).1 c).symm
        have h2' : p'.headers[a]? = p.headers[a]? := h2 a this
        rw [h2']

/-- **C32**, `push_back`: the first header not in use becomes valid, nothing else changes. -/
theorem C32_push_back {p : Phv} {st : Stack} (ok : StackOk p st) (h0 : st.next < st.elements.length) :
    ∃ p' x, st.pushBack headerOps p = some (1, { st with next := st.next + 1 }, p') ∧
      x.isSome = true ∧ seen p' st = (seen p st).set st.next x ∧ Frame p p' st := by
  obtain ⟨t, he⟩ := ok.elems
  obtain ⟨p', r, I, h1, h2⟩ := (header_laws t st.elements).markValid p st.elements[st.next] he
    (List.getElem_mem h0)
  have hv : (seenOf p'.headers[st.elements[st.next]]?).isSome = true := by
    obtain ⟨⟨z, e1, e2⟩, _⟩ := I _ (List.getElem_mem h0)
    have h1' : p'.headers[st.elements[st.next]]? = _ := h1
    obtain ⟨⟨y, e3, e4⟩, _⟩ := he _ (List.getElem_mem h0)
    obtain ⟨w, h3, _, h5, _⟩ := e4.setValidField true 1
    have e3' : hget p st.elements[st.next] = some y := e3
    rw [h1', e3']
    simp only [Option.bind_some, Header.markValid, h3, seenOf, h5]
    rfl
  refine ⟨p', _, ?_, hv, ?_, fun h hh => h2 h (fun e => hh (e ▸ List.getElem_mem h0))⟩
  · simp only [pushBack, if_neg (show ¬ st.next = st.elements.length by omega),
      List.getElem?_eq_getElem h0, Option.bind_eq_bind, Option.bind_some, r]
    rfl
  · apply List.ext_getElem?
    intro i
    by_cases hi : st.next = i
    · subst hi
      rw [List.getElem?_set_self (by simpa [seen] using h0)]
      simp only [seen, List.getElem?_map, List.getElem?_eq_getElem h0, Option.map_some]
    · rw [List.getElem?_set_ne hi]
      simp only [seen, List.getElem?_map]
      cases e : st.elements[i]? with
      | none => rfl
      | some a =>
        simp only [Option.map_some]
        obtain ⟨hil, e'⟩ := List.getElem?_eq_some_iff.1 e
        have : a ≠ st.elements[st.next] := by
          intro c
          rw [← e'] at c
          exact hi ((List.Nodup.getElem_inj_iff ok.nodup).1 c).symm
        have h2' : p'.headers[a]? = p.headers[a]? := h2 a this
        rw [h2']

/-- **C32**: `pop_back` of an empty stack and `push_back` on a full one do nothing. -/
theorem C32_back_noop (p : Phv) (st : Stack) :
    (st.next = 0 → st.popBack headerOps p = some (0, st, p)) ∧
    (st.next = st.elements.length → st.pushBack headerOps p = some (0, st, p)) :=
  ⟨fun h => by simp [popBack, h], fun h => by simp [pushBack, h]⟩

/-! ## Stacks of unions -/

/-- What is seen of a union: which member is valid, if any, and the members. -/
def unionSeen (p : Phv) (st : Stack) : List (Option (Bool × Nat × List (Option Header))) :=
  st.elements.map (uget p)

/-- A stack of unions as the configuration makes it. -/
structure UnionStackOk (p : Phv) (st : Stack) : Prop where
  nonempty : st.elements ≠ []
  nodup : st.elements.Nodup
  elems : ∃ ts, UElems ts st.elements p
  next : st.next ≤ st.elements.length

/-- **C32**, partial: on stacks of unions, `pop_front(n)` shifts.  Missing: the vacated positions are
not made invalid (`C32_union_pop_refuted`). -/
theorem C32_union_pop_front_partial {p : Phv} {st : Stack} (ok : UnionStackOk p st) (n : Nat) :
    ∃ p' st' rest, st.popFrontP416 unionOps n p = some (min n st.elements.length, st', p') ∧
      unionSeen p' st' = (unionSeen p st).drop n ++ rest ∧ rest.length = min n st.elements.length ∧
      st'.next = st.next - n ∧ UnionStackOk p' st' := by
  obtain ⟨ts, he⟩ := ok.elems
  obtain ⟨p', Z, r, I, hz, hv, _⟩ := popFrontP416_spec (union_laws ts st.elements) ok.nodup rfl n he
  refine ⟨p', _, Z, r, ?_, hz, by simp only; omega,
    ⟨ok.nonempty, ok.nodup, ⟨ts, I⟩, by have := ok.next; simp only; omega⟩⟩
  have : unionSeen p' { st with next := st.next - min st.next n } = view uget st.elements p' := rfl
  rw [this, hv, List.map_id]
  rfl

/-- **C32**, partial: on stacks of unions, `push_front(n)` shifts; the pushed positions are not made
invalid. -/
theorem C32_union_push_front_partial {p : Phv} {st : Stack} (ok : UnionStackOk p st) (n : Nat)
    (hov : st.next + n < 2 ^ 64) :
    ∃ p' st' new, st.pushFrontP416 unionOps n p = some (min n st.elements.length, st', p') ∧
      unionSeen p' st' = new ++ (unionSeen p st).take (st.elements.length - n) ∧
      new.length = min n st.elements.length ∧
      st'.next = min st.elements.length (st.next + n) ∧ UnionStackOk p' st' := by
  obtain ⟨ts, he⟩ := ok.elems
  obtain ⟨p', Z, r, I, hz, hv, _⟩ := pushFrontP416_spec (union_laws ts st.elements) ok.nodup rfl
    (List.length_pos_of_ne_nil ok.nonempty) ok.next n hov he
  refine ⟨p', { st with next := min st.elements.length (st.next + n) }, Z, by rw [r, Nat.min_comm n], ?_,
    by rw [hz, Nat.min_comm], rfl,
    ⟨ok.nonempty, ok.nodup, ⟨ts, I⟩, by simp only; omega⟩⟩
  have : unionSeen p' { st with next := min st.elements.length (st.next + n) }
      = view uget st.elements p' := rfl
  rw [this, hv, List.map_id]
  rfl

/-! ## Examples and refutations -/

/-- A stack of three headers. -/
def exS : Config := ⟨[exH 0, exH 0, exH 0], [], [[0, 1, 2]], []⟩

/-- Two headers extracted. -/
def exP : Phv := ((exS.initial.extract 0 [10] 0).bind (·.extract 1 [11] 0)).getD exS.initial

/-- Its stack. -/
def exSt : Stack := ⟨[0, 1, 2], 2⟩

/-- A field without its contents. -/
def blank (f : Field) : Field := { f with bytes := [], value := 0 }

theorem inst_of_blank {t x : Header} {f v : Field} (hf : x.fields = [f, v]) (hv : v.hidden = true)
    (hs : v.Shape) (h : ({ x with valid := false, fields := x.fields.map blank } : Header)
      = { t with valid := false, fields := t.fields.map blank }) : Inst t x := by
  have h1 := congrArg Header.typeId h
  have h2 := congrArg Header.vlOffset h
  have h3 := congrArg Header.metadata h
  have h4 := congrArg Header.fields h
  simp only at h1 h2 h3 h4
  refine ⟨h1.symm, h2.symm, h3.symm, ?_, [f], v, hf, hv, hs⟩
  clear h1 h2 h3 h hf
  revert h4
  generalize t.fields = a
  generalize x.fields = b
  intro h4
  induction a generalizing b with
  | nil => cases b with
    | nil => exact .nil
    | cons y b => simp at h4
  | cons z a ih => cases b with
    | nil => simp at h4
    | cons y b =>
      simp only [List.map_cons, List.cons.injEq] at h4
      refine .cons ?_ (ih b h4.2)
      have e := h4.1.symm
      simp only [blank, Field.mk.injEq] at e
      obtain ⟨e1, e2, _, _, e3, e4, e5, e6, e7, e8, e9, e10⟩ := e
      exact ⟨e3, e4, e5, e6, e7, fun _ => ⟨e1, e2, e8, e9, e10⟩⟩

/-- The hypotheses of the theorems hold for it. -/
theorem exSt_ok : StackOk exP exSt := by
  refine ⟨by decide, by decide, ⟨exH 0, ?_⟩, by decide⟩
  let v : Bool → Field := fun b => ⟨1, 1, [if b then 1 else 0], if b then 1 else 0, true, false, true,
    false, false, 1, 1, 0⟩
  let f : UInt8 → Field := fun n => ⟨8, 1, [n], n.toNat, true, false, false, false, false, 255, 255, 0⟩
  have hs : ∀ b, (v b).Shape := by
    intro b
    cases b
    all_goals exact ⟨by decide, by decide, by decide, by decide, by decide, by decide⟩
  have hp : exP.headers = [⟨0, none, [f 10, v true], true, false, 1⟩,
      ⟨0, none, [f 11, v true], true, false, 1⟩, ⟨0, none, [f 0, v false], false, false, 1⟩] := by
    decide +kernel
  have hm : exP.memb = [none, none, none] := by decide +kernel
  intro a ha
  have : a = 0 ∨ a = 1 ∨ a = 2 := by simpa [exSt] using ha
  rw [hp, hm]
  rcases this with rfl | rfl | rfl
  · exact ⟨⟨_, rfl, inst_of_blank rfl rfl (hs true) (by decide +kernel)⟩, rfl⟩
  · exact ⟨⟨_, rfl, inst_of_blank rfl rfl (hs true) (by decide +kernel)⟩, rfl⟩
  · exact ⟨⟨_, rfl, inst_of_blank rfl rfl (hs false) (by decide +kernel)⟩, rfl⟩

/-- Values seen. -/
def vals (p : Phv) (st : Stack) : List (Option (List Int)) :=
  (seen p st).map (·.map fun c => c.1.map (·.value))

example : vals exP exSt = [some [10], some [11], none] ∧
    (exSt.popFrontP416 headerOps 1 exP).map (fun r => (r.1, r.2.1.next, vals r.2.2 r.2.1))
      = some (1, 1, [some [11], none, none]) ∧
    (exSt.pushFrontP416 headerOps 2 exP).map (fun r => (r.1, r.2.1.next, vals r.2.2 r.2.1))
      = some (2, 3, [none, none, some [10]]) ∧
    (exSt.pushFrontLegacy headerOps 1 exP).map (fun r => (r.1, r.2.1.next, vals r.2.2 r.2.1))
      = some (1, 3, [some [0], some [10], some [11]]) ∧
    (exSt.popFrontLegacy headerOps 7 exP).map (fun r => (r.1, r.2.1.next, vals r.2.2 r.2.1))
      = some (2, 0, [none, none, none]) ∧
    (exSt.pushBack headerOps exP).map (fun r => (r.1, r.2.1.next, vals r.2.2 r.2.1))
      = some (1, 3, [some [10], some [11], some [0]]) ∧
    (exSt.popBack headerOps exP).map (fun r => (r.1, r.2.1.next, vals r.2.2 r.2.1))
      = some (1, 1, [some [10], none, none]) := by
  refine ⟨?_, ?_, ?_, ?_, ?_, ?_, ?_⟩ <;> decide +kernel

/-- Pushing `2^64 - 1` headers on a stack with one header in use: the counter wraps around to 0, and
the shift of a legacy stack then runs outside the vector. -/
theorem C32_push_wrap_refuted :
    (exSt.pushFrontP416 headerOps (2 ^ 64 - 1) exP).map (fun r => (r.1, r.2.1.next)) = some (3, 1) ∧
    (({ exSt with next := 1 } : Stack).pushFrontLegacy headerOps (2 ^ 64 - 1) exP) = none := by
  constructor <;> decide +kernel

/-- Two unions in a stack, header 0 of the first one extracted. -/
def exU1 : Phv := (exec false true exC.initial (.extract 0 [7] 0)).getD exC.initial

/-- Header 3, in the second one, extracted too. -/
def exU2 : Phv := (exec false true exU1 (.extract 3 [8] 0)).getD exU1

/-- Popping a stack of two unions, both with a valid header: afterwards the vacated position still
holds a valid header, so popping once more brings it to the front again. -/
theorem C32_union_pop_refuted : Reach false true exC exU2 ∧
    exU2.validHeader 0 = some (some 0) ∧ exU2.validHeader 1 = some (some 3) ∧
    ((⟨[0, 1], 2⟩ : Stack).popFrontP416 unionOps 1 exU2).map (fun r =>
      (r.2.1.next, r.2.2.validHeader 0, r.2.2.validHeader 1))
      = some (1, some (some 1), some (some 2)) := by
  refine ⟨.step _ _ (.extract 3 [8] 0) (.step _ exU1 (.extract 0 [7] 0) .start ?_) ?_, ?_, ?_, ?_⟩ <;>
    decide +kernel

end Bm.Phv
