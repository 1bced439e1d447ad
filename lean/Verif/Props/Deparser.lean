import Verif.Props.Parser
import Verif.Lemmas.Deparser

/-!
# C38: parsing then deparsing reproduces the packet
-/

namespace Bm.Parse

open Bm.Extract Bm.Header

/-- **C38**: for every parser program that skips no bytes (no `shift` and no `advance`) and modifies no
packet header but by extraction, every packet and every initial header vector with regular layouts
(members of unions, stacks, variable-length fields included): if parsing ends, with or without error, and
the deparser's order restricted to the valid headers is the order of extraction, then deparsing the result
in front of the payload gives the packet received.  `room` is what the free part of the buffer contains. -/
theorem C38 {rz : Bool} {states : List PState} {init : Option Nat} {data : Bytes} {trunc fuel : Nat}
    {phv : Phv} (hs : ∀ s ∈ states, ∀ op ∈ s.ops, op.Checked (cfg phv) ∧ op.Plain phv)
    (hr : ∀ hd ∈ phv.headers, Regular hd) {st : St} {er : Option Err} {payload : Bytes}
    (hp : parse rz states init data trunc fuel phv = some (some ((st, er), payload)))
    {order : List Nat} (hnd : order.Nodup)
    (hmeta : ∀ h ∈ order, ∃ x, phv.headers[h]? = some x ∧ x.metadata = false)
    (horder : order.filter (validAt st.phv) = st.trace) (room : Bytes) (hroom : st.pos ≤ room.length) :
    deparse st.phv order room payload = some data := by
  unfold parse at hp
  simp only [Option.bind_eq_bind] at hp
  obtain ⟨r, h1, hp⟩ := Option.bind_eq_some_iff.1 hp
  cases r with
  | none => cases hp
  | some r =>
    obtain ⟨st1, er1⟩ := r
    simp only at hp
    split at hp
    · rename_i hle
      cases hp
      have hr' : ∀ (h : Nat) x, phv.headers[h]? = some x → Regular x :=
        fun h x hx => hr x (List.mem_of_getElem? hx)
      obtain ⟨ok, inv⟩ := loop_goes (p0 := phv) (data := data) (fun s h op ho => (hs s h op ho).1)
        (fun s h op ho => (hs s h op ho).2) hr' (Nat.min_le_left _ _) fuel init
        (st := ⟨phv, 0, []⟩) ⟨rfl, fun hd hm => (hr hd hm).wf.size, Nat.zero_le _⟩
        (fun _ => ⟨fun h x hx => ⟨x, hx, rfl, fun _ => ⟨(hr' h x hx).wf, fun _ => Alike.refl x⟩⟩,
          ⟨[], .nil, by simp⟩⟩) _ h1
      have hsub : ∀ h ∈ st.trace, h ∈ order := fun h hh => by
        rw [← horder] at hh; exact (List.mem_filter.1 hh).1
      have i := inv ⟨by rw [← horder]; exact hnd.filter _, fun h hh => hmeta h (hsub h hh)⟩
      obtain ⟨bs, b1, b2⟩ := i.out
      have hlen : st.phv.headers.length = phv.headers.length := headers_length ok.cfg
      have hbl : bs.flatten.length = st.pos := by rw [b2]; simp [hle]
      obtain ⟨e1, e2⟩ := emit_spec (p := st.phv) order bs
        (room.drop (room.length - st.pos) ++ data.drop st.pos)
        (fun h hh => by
          obtain ⟨x, hx, _⟩ := hmeta h hh
          rw [hlen]
          exact (List.getElem?_eq_some_iff.1 hx).1)
        (by rw [horder]; exact b1)
      rw [hbl] at e1 e2
      unfold deparse
      rw [e1]
      simp only [Option.bind_eq_bind, Option.bind_some]
      rw [if_pos hroom, e2 (by simp; omega), b2]
      rw [List.drop_append_of_le_length (by simp; omega), List.drop_drop]
      rw [List.drop_of_length_le (by omega : room.length ≤ _)]
      simp
    · cases hp

/-- The headers of the example are regular. -/
theorem exPhv_regular : ∀ hd ∈ exPhv.headers, Regular hd := by
  intro hd hm
  have h16 : ∀ (w : Nat) (m : Bool), w = 16 ∨ w = 8 → Regular (exHdr w m) := by
    intro w m hw
    have e : mk' 0 none ([⟨w, false, false, false, false, true⟩] ++ [validInfo true]) m =
        some (exHdr w m) := by
      rcases hw with rfl | rfl <;> cases m <;> decide +kernel
    have hv : ∀ n, (exHdr w m).widths n = [w] := by
      intro n
      have h1 : (exHdr w m).vlOffset = none := by rcases hw with rfl | rfl <;> cases m <;> decide +kernel
      unfold widths
      rw [h1]
      simp only
      rcases hw with rfl | rfl <;> cases m <;> decide +kernel
    refine ⟨mk'_wf (by simp) (by simp) e, fun n => ?_, fun n _ _ => ?_⟩
    · rw [hv n]; simp [ZeroOk]
    · rw [hv n]; rcases hw with rfl | rfl <;> rfl
  have hvl : Regular exVL := by
    have e : mk' 1 (some 1) ([⟨8, false, false, false, false, true⟩,
        ⟨0, false, false, true, false, true⟩] ++ [validInfo true]) false = some exVL := by
      decide +kernel
    have hv : ∀ n, exVL.widths n = [8, n.toNat] := by
      intro n
      have h1 : exVL.vlOffset = some 1 := by decide +kernel
      have h2 : (visible exVL.fields).map (·.nbits) = [8, 0] := by decide +kernel
      unfold widths
      rw [h1]
      simp only [h2, List.set_cons_succ, List.set_cons_zero]
    refine ⟨mk'_wf (by simp) (by simp) e, fun n => ?_, fun n h0 h8 => ?_⟩
    · rw [hv n]; simp [ZeroOk]
    · rw [hv n]
      simp only [List.sum_cons, List.sum_nil]
      omega
  simp only [exPhv, List.mem_cons, List.not_mem_nil, or_false] at hm
  rcases hm with rfl | rfl | rfl | rfl
  · exact h16 16 false (.inl rfl)
  · exact h16 8 false (.inr rfl)
  · exact h16 8 true (.inr rfl)
  · exact hvl

/-- The hypotheses of `C38` hold for the program of C37 and a packet of seven bytes, of which five are
headers; the deparser's order lists the headers extracted. -/
example : (∀ s ∈ exStates, ∀ op ∈ s.ops, op.Checked (cfg exPhv) ∧ op.Plain exPhv) ∧
    (∀ hd ∈ exPhv.headers, Regular hd) ∧
    (∃ st, parse true exStates (some 0) [1, 2, 3, 4, 5, 6, 7] 100 10 exPhv =
        some (some ((st, none), [6, 7])) ∧
      [0, 1, 3].filter (validAt st.phv) = st.trace ∧ st.pos = 5 ∧
      deparse st.phv [0, 1, 3] [0, 0, 0, 0, 0, 0] [6, 7] = some [1, 2, 3, 4, 5, 6, 7]) ∧
    (∀ h ∈ [0, 1, 3], ∃ x, exPhv.headers[h]? = some x ∧ x.metadata = false) := by
  refine ⟨?_, exPhv_regular, ?_, ?_⟩
  · intro s hs op ho
    have h1 := (exStates_safe s hs).1 op ho
    have h2 : ∀ x, exPhv.headers[2]? = some x → x.metadata = true := by decide +kernel
    simp only [exStates, List.mem_cons, List.not_mem_nil, or_false] at hs
    rcases hs with rfl | rfl <;> simp only [List.mem_cons, List.not_mem_nil, or_false] at ho <;>
      rcases ho with rfl | rfl
    · exact ⟨h1, trivial⟩
    · exact ⟨trivial, h2⟩
    · exact ⟨h1, trivial⟩
    · exact ⟨h1, trivial⟩
  · refine ⟨((parse true exStates (some 0) [1, 2, 3, 4, 5, 6, 7] 100 10 exPhv).bind id).get
      (by decide +kernel) |>.1.1, ?_, ?_, ?_, ?_⟩ <;> decide +kernel
  · intro h hh
    simp only [List.mem_cons, List.not_mem_nil, or_false] at hh
    rcases hh with rfl | rfl | rfl
    · exact ⟨exHdr 16 false, by decide +kernel, by decide +kernel⟩
    · exact ⟨exHdr 8 false, by decide +kernel, by decide +kernel⟩
    · exact ⟨exVL, by decide +kernel, by decide +kernel⟩

/-- Skipped bytes are lost: the hypothesis on `shift` is needed. -/
theorem C38_shift : ∃ (states : List PState) (phv : Phv) (data payload : Bytes) (st : St),
    parse true states (some 0) data 100 10 phv = some (some ((st, none), payload)) ∧
    [0].filter (validAt st.phv) = st.trace ∧
    (deparse st.phv [0] [0, 0, 0, 0] payload).map (·.length) = some 3 ∧ data.length = 4 := by
  refine ⟨[⟨[.shift 1, .extract 0 (fun _ => none)], none, none⟩], exPhv, [9, 1, 2, 3], [3],
    ((parse true [⟨[.shift 1, .extract 0 (fun _ => none)], none, none⟩] (some 0) [9, 1, 2, 3] 100 10
      exPhv).bind id).get (by decide +kernel) |>.1.1, ?_, ?_, ?_, rfl⟩ <;> decide +kernel

end Bm.Parse
