import Verif.Spec.PacketBuffer
import Mathlib.Data.List.Forall2

/-!
# Lemmas on the buffers of packets
-/

namespace Bm.PBuf

open Bm.PBuf.Spec

/-- The pointer and the size agree; `d` is the content. -/
structure Holds (b : PB) (cap : Nat) (d : Bytes) : Prop where
  size : b.size = cap
  mem : b.mem.length = cap
  data : b.dataSize = d.length
  le : d.length ≤ cap
  head : b.head = cap - d.length
  tail : b.mem.drop b.head = d

/-- A snapshot and what it stands for. -/
structure SnapOk (b : PB) (cap : Nat) (x : SavedSt) (a : Bytes × Nat) : Prop where
  data : x.dataSize = a.1.length
  le : a.1.length ≤ cap
  head : x.head = cap - a.1.length
  intact : ∀ i, i < a.1.length → a.1.length - a.2 ≤ i → b.mem[cap - a.1.length + i]? = a.1[i]?

/-- A state of the model and what it stands for. -/
structure Rep (s : St) (a : S) : Prop where
  buf : Holds s.pkt.buf a.cap a.data
  payload : s.pkt.payloadSize = 0
  trunc : s.pkt.trunc = a.trunc
  snaps : List.Forall₂ (SnapOk s.pkt.buf a.cap) s.snaps a.snaps

theorem Holds.get {b : PB} {cap : Nat} {d : Bytes} (h : Holds b cap d) (i : Nat) :
    b.mem[cap - d.length + i]? = d[i]? := by
  have := h.tail
  rw [← h.head, ← this, List.getElem?_drop]

/-- Writing in the memory from position `k` on. -/
theorem write_get {m bs : Bytes} {k : Nat} (h : k + bs.length ≤ m.length) (j : Nat) :
    (m.take k ++ bs ++ m.drop (k + bs.length))[j]? =
      if j < k then m[j]? else if j < k + bs.length then bs[j - k]? else m[j]? := by
  have hk : (m.take k).length = k := by rw [List.length_take]; omega
  by_cases h1 : j < k
  · rw [if_pos h1, List.append_assoc, List.getElem?_append_left (by omega),
      List.getElem?_take_of_lt h1]
  · rw [if_neg h1]
    by_cases h2 : j < k + bs.length
    · rw [if_pos h2, List.append_assoc, List.getElem?_append_right (by omega), hk,
        List.getElem?_append_left (by omega)]
    · rw [if_neg h2, List.getElem?_append_right (by rw [List.length_append]; omega),
        List.getElem?_drop, List.length_append, hk]
      congr 1
      omega

theorem push_holds {b : PB} {cap : Nat} {d bs : Bytes} (h : Holds b cap d)
    (hc : d.length + bs.length ≤ cap) :
    ∃ b1 b2, b.push bs.length = some b1 ∧ b1.write 0 bs = some b2 ∧ Holds b2 cap (bs ++ d) ∧
      b2.mem = b.mem.take (cap - (d.length + bs.length)) ++ bs ++
        b.mem.drop (cap - (d.length + bs.length) + bs.length) := by
  have h1 := h.size
  have h2 := h.mem
  have h3 := h.data
  have h4 := h.head
  have h5 := h.le
  refine ⟨{ b with dataSize := b.dataSize + bs.length, head := b.head - bs.length },
    ⟨b.size, b.dataSize + bs.length, b.mem.take (b.head - bs.length + 0) ++ bs ++
      b.mem.drop (b.head - bs.length + 0 + bs.length), b.head - bs.length⟩, ?_, ?_, ?_, ?_⟩
  · unfold PB.push
    rw [if_pos (by omega), if_pos (by omega)]
  · unfold PB.write
    rw [if_pos (by simp only; omega)]
  · refine ⟨h1, ?_, ?_, ?_, ?_, ?_⟩
    · simp only [List.length_append, List.length_take, List.length_drop]
      omega
    · simp only [List.length_append]
      omega
    · rw [List.length_append]
      omega
    · simp only [List.length_append]
      omega
    · simp only [Nat.add_zero]
      have hk : (b.mem.take (b.head - bs.length)).length = b.head - bs.length := by
        rw [List.length_take]; omega
      rw [List.append_assoc, List.drop_append_of_le_length (by omega), List.drop_of_length_le (by omega)]
      rw [List.nil_append, Nat.sub_add_cancel (by omega), h.tail]
  · simp only [Nat.add_zero]
    have : b.head - bs.length = cap - (d.length + bs.length) := by omega
    rw [this]

theorem SnapOk.mono {b b' : PB} {cap n : Nat} {x : SavedSt} {a : Bytes × Nat} (h : SnapOk b cap x a)
    (hm : ∀ j, cap - n ≤ j → b'.mem[j]? = b.mem[j]?) : SnapOk b' cap x (a.1, min a.2 n) := by
  refine ⟨h.data, h.le, h.head, fun i hi hk => ?_⟩
  have := h.le
  have hi : i < a.1.length := hi
  have hk : a.1.length - min a.2 n ≤ i := hk
  show b'.mem[cap - a.1.length + i]? = a.1[i]?
  rw [hm _ (by omega)]
  exact h.intact i hi (by omega)

theorem snaps_touch {b b' : PB} {cap n : Nat} (hm : ∀ j, cap - n ≤ j → b'.mem[j]? = b.mem[j]?)
    {l : List SavedSt} {k : List (Bytes × Nat)} (h : List.Forall₂ (SnapOk b cap) l k) :
    List.Forall₂ (SnapOk b' cap) l (touch n k) := by
  induction h with
  | nil => exact .nil
  | cons h _ ih => exact .cons (h.mono hm) ih

theorem snaps_mem {b b' : PB} {cap : Nat} (hm : b'.mem = b.mem)
    {l : List SavedSt} {k : List (Bytes × Nat)} (h : List.Forall₂ (SnapOk b cap) l k) :
    List.Forall₂ (SnapOk b' cap) l k := by
  induction h with
  | nil => exact .nil
  | cons h _ ih => exact .cons ⟨h.data, h.le, h.head, fun i => by rw [hm]; exact h.intact i⟩ ih

theorem forall₂_get {α β : Type} {R : α → β → Prop} {l : List α} {k : List β} (h : List.Forall₂ R l k)
    {i : Nat} (hi : i < k.length) : ∃ x y, l[i]? = some x ∧ k[i]? = some y ∧ R x y := by
  have hl : i < l.length := by rw [h.length_eq]; exact hi
  exact ⟨l[i], k[i], List.getElem?_eq_getElem hl, List.getElem?_eq_getElem hi, h.get hl hi⟩

/-- One operation: executed exactly if it can be, with a result the specification allows. -/
theorem exec_rep {s : St} {a : S} (h : Rep s a) (o : Op) :
    (Enabled a o → ∃ s' a', s.exec o = some s' ∧ Step a o a' ∧ Rep s' a' ∧ a'.cap = a.cap) ∧
    (¬ Enabled a o → s.exec o = none) := by
  obtain ⟨hb, hp, ht, hs⟩ := h
  have h1 := hb.size
  have h2 := hb.mem
  have h3 := hb.data
  have h4 := hb.head
  have h5 := hb.le
  cases o with
  | prepend bs =>
    refine ⟨fun he => ?_, fun he => ?_⟩
    · simp only [Enabled] at he
      obtain ⟨b1, b2, e1, e2, e3, e4⟩ := push_holds hb he
      refine ⟨{ s with pkt := { s.pkt with buf := b2 } }, _, ?_, .prepend bs, ⟨e3, hp, ht, ?_⟩, rfl⟩
      · simp only [St.exec, Pkt.prepend, e1, e2, Option.bind_eq_bind, Option.bind_some]
        rfl
      · refine snaps_touch (b := s.pkt.buf) (cap := a.cap) (fun j hj => ?_) hs
        show b2.mem[j]? = _
        rw [e4, write_get (by omega), if_neg (by omega), if_neg (by omega)]
    · simp only [Enabled] at he
      simp only [St.exec, Pkt.prepend, PB.push]
      rw [if_neg (by omega)]
      rfl
  | remove n =>
    refine ⟨fun he => ?_, fun he => ?_⟩
    · simp only [Enabled] at he
      refine ⟨⟨⟨⟨s.pkt.buf.size, s.pkt.buf.dataSize - n, s.pkt.buf.mem, s.pkt.buf.head + n⟩,
        s.pkt.trunc, s.pkt.payloadSize⟩, s.snaps⟩, _, ?_, .remove n, ⟨⟨h1, h2, ?_, ?_, ?_, ?_⟩, hp, ht, ?_⟩,
        rfl⟩
      · simp only [St.exec, Pkt.remove, PB.pop]
        rw [if_pos (by omega), if_pos (by omega)]
        rfl
      · simp only [List.length_drop]; omega
      · simp only [List.length_drop]; omega
      · simp only [List.length_drop]; omega
      · simp only
        rw [← List.drop_drop, hb.tail]
      · refine snaps_mem (b := s.pkt.buf) ?_ hs; rfl
    · simp only [Enabled] at he
      simp only [St.exec, Pkt.remove]
      rw [if_neg (by omega)]
      rfl
  | overwrite off bs =>
    refine ⟨fun he => ?_, fun he => ?_⟩
    · simp only [Enabled] at he
      refine ⟨⟨⟨⟨s.pkt.buf.size, s.pkt.buf.dataSize, s.pkt.buf.mem.take (s.pkt.buf.head + off) ++ bs ++
          s.pkt.buf.mem.drop (s.pkt.buf.head + off + bs.length), s.pkt.buf.head⟩, s.pkt.trunc, s.pkt.payloadSize⟩, s.snaps⟩,
        _, ?_, .overwrite off bs, ⟨⟨h1, ?_, ?_, ?_, ?_, ?_⟩, hp, ht, ?_⟩, rfl⟩
      · simp only [St.exec, PB.write]
        rw [if_pos (by omega), if_pos (by omega)]
        rfl
      · simp only [List.length_append, List.length_take, List.length_drop]; omega
      · simp only [List.length_append, List.length_take, List.length_drop]; omega
      · simp only [List.length_append, List.length_take, List.length_drop]; omega
      · simp only [List.length_append, List.length_take, List.length_drop]; omega
      · simp only
        apply List.ext_getElem?
        intro j
        rw [List.getElem?_drop, write_get (by omega), write_get he]
        have hg : s.pkt.buf.mem[s.pkt.buf.head + j]? = a.data[j]? := by
          rw [h4]; exact hb.get j
        by_cases c1 : j < off
        · rw [if_pos (by omega), if_pos c1, hg]
        · rw [if_neg (by omega), if_neg c1]
          by_cases c2 : j < off + bs.length
          · rw [if_pos (by omega), if_pos c2]
            congr 1
            omega
          · rw [if_neg (by omega), if_neg c2, hg]
      · refine snaps_touch (b := s.pkt.buf) (cap := a.cap) (fun j hj => ?_) hs
        simp only
        rw [write_get (by omega), if_neg (by omega), if_neg (by omega)]
    · simp only [Enabled] at he
      simp only [St.exec]
      rw [if_neg (by omega)]
  | save =>
    refine ⟨fun _ => ⟨⟨s.pkt, s.snaps ++ [s.pkt.buf.save]⟩, _, rfl, .save, ⟨hb, hp, ht, ?_⟩, rfl⟩,
      fun he => absurd trivial he⟩
    refine List.rel_append hs (.cons ⟨h3, h5, h4, fun i _ _ => ?_⟩ .nil)
    exact hb.get i
  | restore i =>
    refine ⟨fun he => ?_, fun he => ?_⟩
    · simp only [Enabled] at he
      obtain ⟨x, y, e1, e2, e3⟩ := forall₂_get hs he
      have l1 := e3.le
      have l2 := e3.head
      have hlen : (s.pkt.buf.mem.drop x.head).length = y.1.length := by
        rw [List.length_drop]; omega
      refine ⟨⟨⟨s.pkt.buf.restore x, s.pkt.trunc, s.pkt.payloadSize⟩, s.snaps⟩, _, ?_,
        .restore i y (s.pkt.buf.mem.drop x.head) e2 ⟨hlen, fun j hj hk => ?_⟩,
        ⟨⟨h1, h2, ?_, ?_, ?_, ?_⟩, hp, ht, ?_⟩, rfl⟩
      · simp only [St.exec, e1, Option.bind_eq_bind, Option.bind_some]
        rfl
      · rw [List.getElem?_drop, l2]
        exact e3.intact j hj hk
      · simp only [PB.restore]
        rw [hlen]; exact e3.data
      · simp only
        rw [hlen]; exact l1
      · simp only [PB.restore]
        rw [hlen]; exact l2
      · rfl
      · refine snaps_mem (b := s.pkt.buf) ?_ hs; rfl
    · simp only [Enabled] at he
      simp only [St.exec]
      rw [List.getElem?_eq_none (by rw [hs.length_eq]; omega)]
      rfl
  | truncate n =>
    exact ⟨fun _ => ⟨⟨s.pkt.truncate n, s.snaps⟩, _, rfl, .truncate n, ⟨hb, hp, by
      simp only [Pkt.truncate, ht], hs⟩, rfl⟩, fun he => absurd trivial he⟩

/-- Sending. -/
theorem sent_rep {p : Pkt} {cap : Nat} {d : Bytes} (h : Holds p.buf cap d) :
    p.sent = some (d.take p.trunc) := by
  have h2 := h.mem
  have h3 := h.data
  have h4 := h.head
  have h5 := h.le
  unfold Pkt.sent PB.bytes
  rw [if_pos (by unfold Pkt.dataSize; omega), h.tail]
  unfold Pkt.dataSize
  rw [h3]
  congr 1
  rcases Nat.le_total d.length p.trunc with c | c
  · rw [Nat.min_eq_left c, List.take_of_length_le (by omega), List.take_of_length_le c]
  · rw [Nat.min_eq_right c]

theorem mkEmpty_holds {size : Nat} {junk : Bytes} (h : junk.length = size) :
    ∃ b, mkEmpty size junk = some b ∧ Holds b size [] :=
  ⟨_, by unfold mkEmpty; rw [if_pos h], rfl, h, rfl, by simp, by simp, by
    simp only; rw [List.drop_of_length_le (by omega)]⟩

theorem mkData_holds {size : Nat} {data junk : Bytes} (h : junk.length = size) (hd : data.length ≤ size) :
    ∃ b, mkData size data junk = some b ∧ Holds b size data := by
  obtain ⟨b, e, hb⟩ := mkEmpty_holds h
  obtain ⟨b1, b2, e1, e2, e3, _⟩ := push_holds (bs := data) hb (by simpa using hd)
  rw [List.append_nil] at e3
  exact ⟨b2, by simp only [mkData, e, e1, e2, Option.bind_eq_bind, Option.bind_some], e3⟩

theorem mkData_none {size : Nat} {data junk : Bytes} (hd : size < data.length) :
    mkData size data junk = none := by
  unfold mkData mkEmpty
  split
  · simp only [Option.bind_eq_bind, Option.bind_some, PB.push]
    rw [if_neg (by omega)]
    rfl
  · rfl

/-- A clone has the content of the packet. -/
theorem clone_holds {p : Pkt} {cap : Nat} {d junk : Bytes} (h : Holds p.buf cap d)
    (hj : junk.length = cap) :
    ∃ c, p.clone junk = some c ∧ Holds c.buf cap d ∧ c.trunc = noTrunc ∧ c.payloadSize = 0 := by
  have h1 := h.size
  have h2 := h.mem
  have h3 := h.data
  have h4 := h.head
  have h5 := h.le
  obtain ⟨b, e, hb⟩ := mkEmpty_holds hj
  obtain ⟨b1, b2, e1, e2, e3, _⟩ := push_holds (bs := d) hb (by simpa using h5)
  rw [List.append_nil] at e3
  refine ⟨Pkt.mk' b2, ?_, e3, rfl, rfl⟩
  have ht : (p.buf.mem.drop (cap - d.length)).take d.length = d := by
    rw [← h4, h.tail, List.take_of_length_le (Nat.le_refl _)]
  simp only [Pkt.clone, PB.clone, h3, h1, e, e1, Nat.le_refl, if_true, Option.bind_eq_bind,
    Option.bind_some]
  rw [if_pos h5, ht, e2]
  rfl

theorem pass_holds {p : Pkt} {cap n : Nat} {d hdrs junk : Bytes} (h : Holds p.buf cap d)
    (hp : p.payloadSize = 0) (hn : n ≤ d.length) (hj : junk.length = cap) :
    (hdrs.length + (d.length - n) ≤ cap → ∃ q, pass p n hdrs junk = some q ∧
      Holds q.buf cap (hdrs ++ d.drop n) ∧ q.trunc = noTrunc ∧ q.payloadSize = 0) ∧
    (cap < hdrs.length + (d.length - n) → pass p n hdrs junk = none) := by
  have hr : Rep ⟨p, []⟩ ⟨cap, d, [], p.trunc⟩ := ⟨h, hp, rfl, .nil⟩
  obtain ⟨s1, a1, e1, t1, r1, _⟩ := (exec_rep hr (.remove n)).1 hn
  cases t1
  have f1 : p.remove n = some s1.pkt := by
    simp only [St.exec, Option.bind_eq_bind] at e1
    obtain ⟨x, hx, e1⟩ := Option.bind_eq_some_iff.1 e1
    cases e1
    exact hx
  refine ⟨fun hc => ?_, fun hc => ?_⟩
  · obtain ⟨s2, a2, e2, t2, r2, _⟩ := (exec_rep r1 (.prepend hdrs)).1 (by
      simp only [Enabled, List.length_drop]; omega)
    cases t2
    have f2 : s1.pkt.prepend hdrs = some s2.pkt := by
      simp only [St.exec, Option.bind_eq_bind] at e2
      obtain ⟨x, hx, e2⟩ := Option.bind_eq_some_iff.1 e2
      cases e2
      exact hx
    obtain ⟨c, f3, c1, c2, c3⟩ := clone_holds r2.buf hj
    exact ⟨c, by simp only [pass, f1, f2, f3, Option.bind_eq_bind, Option.bind_some], c1, c2, c3⟩
  · have e2 := (exec_rep r1 (.prepend hdrs)).2 (by
      simp only [Enabled, List.length_drop]; omega)
    have f2 : s1.pkt.prepend hdrs = none := by
      cases hx : s1.pkt.prepend hdrs with
      | none => rfl
      | some x => simp only [St.exec, hx, Option.bind_eq_bind, Option.bind_some] at e2; cases e2
    simp only [pass, f1, f2, Option.bind_eq_bind, Option.bind_some, Option.bind_none]

end Bm.PBuf
