import Verif.Lemmas.PacketBuffer


/-!
# C82: the data of packets
-/

namespace Bm.PBuf

open Bm.PBuf.Spec

/-- A packet that was received, and what it stands for. -/
theorem receive_rep {data junk : Bytes} (hj : junk.length = data.length + 512) :
    ∃ p, receive data junk = some p ∧ Rep ⟨p, []⟩ ⟨data.length + 512, data, [], noTrunc⟩ := by
  obtain ⟨b, e, h⟩ := mkData_holds (data := data) hj (by omega)
  exact ⟨Pkt.mk' b, by simp only [receive, e, Option.bind_eq_bind, Option.bind_some]; rfl,
    h, rfl, rfl, .nil⟩

/-- Operations one after the other. -/
theorem run_rep : ∀ (os : List Op) {s : St} {a : S}, Rep s a →
    (∃ s' a', s.run os = some s' ∧ Steps a os a' ∧ Rep s' a' ∧ a'.cap = a.cap) ∨
    (s.run os = none ∧ ∃ os1 o os2 a1, os = os1 ++ o :: os2 ∧ Steps a os1 a1 ∧ ¬ Enabled a1 o)
  | [], s, a, h => .inl ⟨s, a, rfl, .nil a, h, rfl⟩
  | o :: os, s, a, h => by
    by_cases he : Enabled a o
    · obtain ⟨s1, a1, e1, t1, r1, c1⟩ := (exec_rep h o).1 he
      rcases run_rep os r1 with ⟨s', a', e2, t2, r2, c2⟩ | ⟨e2, os1, o', os2, a2, rfl, t2, n2⟩
      · exact .inl ⟨s', a', by simp only [St.run, e1, e2, Option.bind_eq_bind, Option.bind_some],
          .cons he t1 t2, r2, c2.trans c1⟩
      · exact .inr ⟨by simp only [St.run, e1, e2, Option.bind_eq_bind, Option.bind_some],
          o :: os1, o', os2, a2, rfl, .cons he t1 t2, n2⟩
    · exact .inr ⟨by
        simp only [St.run, (exec_rep h o).2 he, Option.bind_eq_bind, Option.bind_none],
        [], o, os, a, rfl, .nil a, he⟩

/-- **C82**, operations on a packet that was received, for every content, every content of the memory and
every sequence of operations: either all are executed, with the content the specification allows, of which
the truncated part is sent; or one of them cannot be executed, and the switch aborts. -/
theorem C82_run {data junk : Bytes} (hj : junk.length = data.length + 512) (os : List Op) :
    ∃ p, receive data junk = some p ∧ p.sent = some (data.take noTrunc) ∧
    ((∃ s' a', (St.mk p []).run os = some s' ∧
        Steps ⟨data.length + 512, data, [], noTrunc⟩ os a' ∧
        s'.pkt.sent = some (a'.data.take a'.trunc) ∧
        (s'.pkt.clone (List.replicate (data.length + 512) 0)).map (·.sent) =
          some (some (a'.data.take noTrunc))) ∨
     ((St.mk p []).run os = none ∧
        ∃ os1 o os2 a1, os = os1 ++ o :: os2 ∧
          Steps ⟨data.length + 512, data, [], noTrunc⟩ os1 a1 ∧ ¬ Enabled a1 o)) := by
  obtain ⟨p, e, h⟩ := receive_rep hj
  refine ⟨p, e, ?_, ?_⟩
  · rw [sent_rep h.buf, h.trunc]
  · rcases run_rep os h with ⟨s', a', e1, t1, r1, c1⟩ | h2
    · refine .inl ⟨s', a', e1, t1, ?_, ?_⟩
      · rw [sent_rep r1.buf, r1.trunc]
      · obtain ⟨c, f1, f2, f3, _⟩ := clone_holds r1.buf
          (junk := List.replicate (data.length + 512) 0) (by rw [List.length_replicate, c1])
        rw [f1, Option.map_some, sent_rep f2, f3]
    · exact .inr h2

/-- Snapshots of a state in a quiet run: those that may still be used are intact. -/
theorem steps_doc : ∀ {os : List Op} {a a' : S}, Steps a os a' → ∀ {dead : Nat} {l : List Bytes},
    quiet a.snaps.length dead os = true → a.snaps.map (·.1) = l →
    (∀ i x, a.snaps[i]? = some x → dead ≤ i → x.2 = x.1.length) →
    ∃ l', docRun (a.data, l) os = some (a'.data, l') := by
  intro os a a' h
  induction h with
  | nil s => intro dead l _ _ _; exact ⟨l, rfl⟩
  | @cons s t u o os he ht _ ih =>
    intro dead l hq hl hi
    have htl : ∀ n, (touch n s.snaps).length = s.snaps.length := fun n => by simp [touch]
    have htm : ∀ n, (touch n s.snaps).map (·.1) = l := fun n => by rw [← hl]; simp [touch]
    cases ht with
    | prepend bs =>
      simp only [quiet] at hq
      obtain ⟨l', e⟩ := ih (dead := s.snaps.length) (l := l) (by simpa only [htl] using hq) (htm _)
        (fun i x hx hd => by
          simp only at hx
          have := (List.getElem?_eq_some_iff.1 hx).1
          rw [htl] at this
          omega)
      exact ⟨l', e⟩
    | overwrite off bs =>
      simp only [quiet] at hq
      obtain ⟨l', e⟩ := ih (dead := s.snaps.length) (l := l) (by simpa only [htl] using hq) (htm _)
        (fun i x hx hd => by
          simp only at hx
          have := (List.getElem?_eq_some_iff.1 hx).1
          rw [htl] at this
          omega)
      exact ⟨l', e⟩
    | remove n =>
      obtain ⟨l', e⟩ := ih (dead := dead) (l := l) hq hl hi
      exact ⟨l', e⟩
    | truncate n =>
      obtain ⟨l', e⟩ := ih (dead := dead) (l := l) hq hl hi
      exact ⟨l', e⟩
    | save =>
      obtain ⟨l', e⟩ := ih (dead := dead) (l := l ++ [s.data])
        (by simpa only [quiet, List.length_append, List.length_singleton] using hq)
        (by rw [← hl]; simp)
        (fun i x hx hd => by
          simp only at hx
          by_cases c : i < s.snaps.length
          · rw [List.getElem?_append_left c] at hx
            exact hi i x hx hd
          · rw [List.getElem?_append_right (by omega)] at hx
            rw [List.getElem?_singleton] at hx
            split at hx
            · cases hx; rfl
            · cases hx)
      exact ⟨l', e⟩
    | restore i x d hx hs =>
      simp only [quiet, Bool.and_eq_true, decide_eq_true_eq] at hq
      have hk := hi i x hx hq.1
      have hd : d = x.1 := by
        apply List.ext_getElem?
        intro j
        by_cases c : j < x.1.length
        · exact hs.2 j c (by omega)
        · rw [List.getElem?_eq_none (by rw [hs.1]; omega), List.getElem?_eq_none (by omega)]
      obtain ⟨l', e⟩ := ih (dead := dead) (l := l) hq.2 hl hi
      refine ⟨l', ?_⟩
      have hli : l[i]? = some x.1 := by rw [← hl, List.getElem?_map, hx]; rfl
      simp only [docRun, hli]
      rw [← hd]
      exact e

/-- **C82**, snapshots (partial): if no snapshot is used after something was put in front or overwritten
since it was taken, then restoring a snapshot gives the content at the time it was taken.
Missing: the documentation (`packet.h:181-183`) says so of all runs; see `C82_refuted`. -/
theorem C82_restore_partial {data junk : Bytes} (hj : junk.length = data.length + 512) {os : List Op}
    (hq : quiet 0 0 os = true) {p : Pkt} (hp : receive data junk = some p) {s' : St}
    (hr : (St.mk p []).run os = some s') :
    ∃ d l, docRun (data, []) os = some (d, l) ∧ s'.pkt.sent = some (d.take s'.pkt.trunc) := by
  obtain ⟨p', e, h⟩ := receive_rep hj
  rw [hp] at e
  cases e
  rcases run_rep os h with ⟨s1, a1, e1, t1, r1, _⟩ | ⟨h2, _⟩
  · rw [hr] at e1
    cases e1
    obtain ⟨l', e⟩ := steps_doc t1 (dead := 0) (l := []) hq rfl (by intro i x hx; simp at hx)
    exact ⟨_, l', e, by rw [sent_rep r1.buf]⟩
  · rw [hr] at h2
    cases h2

/-- **C82**, clones: a clone has all bytes of the packet. -/
theorem C82_clone {data junk junk' : Bytes} (hj : junk.length = data.length + 512)
    (hj' : junk'.length = data.length + 512) (os : List Op) {p : Pkt} (hp : receive data junk = some p)
    {s' : St} (hr : (St.mk p []).run os = some s') :
    ∃ (c : Pkt) (d : Bytes), s'.pkt.clone junk' = some c ∧ s'.pkt.sent = some (d.take s'.pkt.trunc) ∧
      c.sent = some (d.take noTrunc) := by
  obtain ⟨p', e, h⟩ := receive_rep hj
  rw [hp] at e
  cases e
  rcases run_rep os h with ⟨s1, a1, e1, _, r1, c1⟩ | ⟨h2, _⟩
  · rw [hr] at e1
    cases e1
    obtain ⟨c, f1, f2, f3, _⟩ := clone_holds r1.buf (junk := junk') (by rw [hj', c1])
    exact ⟨c, a1.data, f1, sent_rep r1.buf, by rw [sent_rep f2, f3]⟩
  · rw [hr] at h2
    cases h2

/-- Passes one after the other. -/
theorem passes_holds : ∀ (l : List (Nat × Bytes × Bytes)) {p : Pkt} {cap : Nat} {d : Bytes},
    Holds p.buf cap d → p.payloadSize = 0 → p.trunc = noTrunc → (∀ x ∈ l, x.2.2.length = cap) →
    (∀ l1 x l2, l = l1 ++ x :: l2 → x.1 ≤ (afterPasses d l1).length) →
    (((∀ l1 l2, l = l1 ++ l2 → (d.length : Int) + growth l1 ≤ cap) ∧
      ∃ q, passes p l = some q ∧ q.sent = some ((afterPasses d l).take noTrunc)) ∨
    ((∃ l1 l2, l = l1 ++ l2 ∧ (cap : Int) < d.length + growth l1) ∧ passes p l = none))
  | [], p, cap, d, h, hp, ht, _, _ => by
    refine .inl ⟨fun l1 l2 e => ?_, p, rfl, by rw [sent_rep h, ht]; rfl⟩
    have := List.append_eq_nil_iff.1 e.symm
    rw [this.1]
    have := h.le
    simp only [growth]
    omega
  | (n, hdrs, junk) :: r, p, cap, d, h, hp, ht, hj, hn => by
    have hn0 : n ≤ d.length := hn [] _ r rfl
    obtain ⟨h1, h2⟩ := pass_holds (hdrs := hdrs) h hp hn0 (hj (n, hdrs, junk) (by simp))
    by_cases hc : hdrs.length + (d.length - n) ≤ cap
    · obtain ⟨q, e1, e2, e3, e4⟩ := h1 hc
      have hlen : (hdrs ++ d.drop n).length = hdrs.length + (d.length - n) := by simp
      rcases passes_holds r e2 e4 e3 (fun x hx => hj x (by simp [hx]))
        (fun l1 x l2 e => by
          have := hn ((n, hdrs, junk) :: l1) x l2 (by rw [e]; rfl)
          simpa only [afterPasses] using this) with ⟨i1, q', i2, i3⟩ | ⟨⟨l1, l2, i1, i2⟩, i3⟩
      · refine .inl ⟨fun l1 l2 e => ?_, q', ?_, ?_⟩
        · cases l1 with
          | nil =>
            have := h.le
            simp only [growth]
            omega
          | cons y l1 =>
            cases e
            have := i1 l1 l2 rfl
            rw [hlen] at this
            simp only [growth]
            omega
        · simp only [passes, e1, i2, Option.bind_eq_bind, Option.bind_some]
        · exact i3
      · refine .inr ⟨⟨(n, hdrs, junk) :: l1, l2, by rw [i1]; rfl, ?_⟩, ?_⟩
        · rw [hlen] at i2
          simp only [growth]
          omega
        · simp only [passes, e1, i3, Option.bind_eq_bind, Option.bind_some]
    · refine .inr ⟨⟨[(n, hdrs, junk)], r, rfl, ?_⟩, ?_⟩
      · simp only [growth]
        omega
      · simp only [passes, h2 (by omega), Option.bind_eq_bind, Option.bind_none]

/-- **C82**, recirculation (partial): a packet that is recirculated any number of times has the bytes the
passes give, as long as it has at no time grown by more than 512 bytes since it was received; the pass that
exceeds this aborts the switch.  Missing: the limit is meant for the headers that are added
(`simple_switch.cpp:233-235`), but counts over all passes; see `C82_refuted_passes`. -/
theorem C82_passes_partial {data junk : Bytes} (hj : junk.length = data.length + 512) {p : Pkt}
    (hp : receive data junk = some p) (l : List (Nat × Bytes × Bytes))
    (hl : ∀ x ∈ l, x.2.2.length = data.length + 512)
    (hn : ∀ l1 x l2, l = l1 ++ x :: l2 → x.1 ≤ (afterPasses data l1).length) :
    ((∀ l1 l2, l = l1 ++ l2 → growth l1 ≤ 512) →
      ∃ q, passes p l = some q ∧ q.sent = some ((afterPasses data l).take noTrunc)) ∧
    ((∃ l1 l2, l = l1 ++ l2 ∧ 512 < growth l1) → passes p l = none) := by
  obtain ⟨p', e, h⟩ := receive_rep hj
  rw [hp] at e
  cases e
  rcases passes_holds l h.buf h.payload h.trunc hl hn with ⟨h1, h2⟩ | ⟨⟨l1, l2, h1, h2⟩, h3⟩
  · refine ⟨fun _ => h2, fun ⟨l1, l2, e, hg⟩ => ?_⟩
    have := h1 l1 l2 e
    simp only at this
    omega
  · refine ⟨fun hg => ?_, fun _ => h3⟩
    have := hg l1 l2 h1
    simp only at h2
    omega

/-- **C82**, targets with a buffer of 2048 bytes: packets of up to 2048 bytes are accepted, longer ones
abort the switch. -/
theorem C82_receive2048 {data junk : Bytes} (hj : junk.length = 2048) :
    (data.length ≤ 2048 → ∃ p, receive2048 data junk = some p ∧ p.sent = some data) ∧
    (2048 < data.length → receive2048 data junk = none) := by
  refine ⟨fun h => ?_, fun h => ?_⟩
  · obtain ⟨b, e, hb⟩ := mkData_holds (data := data) hj h
    refine ⟨Pkt.mk' b, by simp only [receive2048, e, Option.bind_eq_bind, Option.bind_some]; rfl, ?_⟩
    rw [sent_rep (p := Pkt.mk' b) hb]
    congr 1
    refine List.take_of_length_le ?_
    simp only [Pkt.mk', noTrunc]
    omega
  · simp only [receive2048, mkData_none h, Option.bind_eq_bind, Option.bind_none]

/-! ### Concrete cases and refutations -/

namespace Ex

/-- A packet of four bytes. -/
def p0 : Pkt := (receive [1, 2, 3, 4] (List.replicate 516 0xaa)).get (by decide +kernel)

theorem p0_eq : receive [1, 2, 3, 4] (List.replicate 516 0xaa) = some p0 := by decide +kernel

/-- What the ingress thread of `simple_switch` does with a packet that is cloned, and then deparsed: two
snapshots, both used before the headers are put in front. -/
def opsOk : List Op := [.save, .remove 2, .save, .restore 0, .restore 1, .prepend [7, 8, 9]]

/-- The hypotheses of `C82_restore_partial` hold. -/
example : quiet 0 0 opsOk = true ∧
    ((St.mk p0 []).run opsOk).map (·.pkt.sent) = some (some [7, 8, 9, 3, 4]) ∧
    (docRun ([1, 2, 3, 4], []) opsOk).map (·.1) = some [7, 8, 9, 3, 4] := by
  decide +kernel

/-- A snapshot that is restored before the headers are put in front. -/
example : quiet 0 0 (opsOk.take 4) = true ∧
    ((St.mk p0 []).run (opsOk.take 4)).map (·.pkt.sent) = some (some [1, 2, 3, 4]) := by
  decide +kernel

/-- **C82 is refuted** for snapshots: a header is removed, another one is put in front, and the snapshot taken
at the beginning is restored; the packet has the first byte of the other header. -/
theorem C82_refuted : ∃ (data junk : Bytes) (os : List Op) (p : Pkt) (s' : St) (d : Bytes) (l : List Bytes),
    junk.length = data.length + 512 ∧ receive data junk = some p ∧ (St.mk p []).run os = some s' ∧
    docRun (data, []) os = some (d, l) ∧ s'.pkt.sent ≠ some d ∧ s'.pkt.sent = some [1, 9, 3, 4] := by
  refine ⟨[1, 2, 3, 4], List.replicate 516 0xaa, [.save, .remove 2, .prepend [9], .restore 0], p0,
    ((St.mk p0 []).run [.save, .remove 2, .prepend [9], .restore 0]).get (by decide +kernel),
    [1, 2, 3, 4], [[1, 2, 3, 4]], ?_, ?_, ?_, ?_, ?_, ?_⟩ <;> decide +kernel

/-- **C82 is refuted** for clones of truncated packets: the packet is sent with two bytes, its clone (a
recirculated packet, for instance) with four. -/
theorem C82_refuted_clone : ∃ (p c : Pkt) (junk : Bytes),
    (p0.truncate 2) = p ∧ p.clone junk = some c ∧
    p.sent = some [1, 2] ∧ c.sent = some [1, 2, 3, 4] := by
  refine ⟨p0.truncate 2, ((p0.truncate 2).clone (List.replicate 516 0)).get (by decide +kernel),
    List.replicate 516 0, rfl, ?_, ?_, ?_⟩ <;> decide +kernel

/-- Two passes that put 300 bytes in front each. -/
def grow : List (Nat × Bytes × Bytes) :=
  [(0, List.replicate 300 1, List.replicate 516 0), (0, List.replicate 300 2, List.replicate 516 0)]

/-- **C82 is refuted** for recirculation: each pass adds 300 bytes, less than the 512 the code allows for, and
the second one aborts. -/
theorem C82_refuted_passes : (∀ x ∈ grow, (x.2.1.length : Int) - x.1 ≤ 512) ∧
    (passes p0 (grow.take 1)).isSome = true ∧ passes p0 grow = none := by
  refine ⟨?_, ?_, ?_⟩ <;> decide +kernel

/-- The hypotheses of `C82_passes_partial` hold, for both outcomes. -/
example : (∀ x ∈ grow, x.2.2.length = 4 + 512) ∧ growth (grow.take 1) = 300 ∧ growth grow = 600 := by
  refine ⟨?_, ?_, ?_⟩ <;> decide +kernel

/-- A packet of 2049 bytes aborts the targets with a buffer of 2048 bytes. -/
theorem C82_refuted_2048 : ∃ data : Bytes, data.length = 2049 ∧
    receive2048 data (List.replicate 2048 0) = none :=
  ⟨List.replicate 2049 0, List.length_replicate .., (C82_receive2048 (List.length_replicate ..)).2
    (by rw [List.length_replicate]; omega)⟩

end Ex

end Bm.PBuf
