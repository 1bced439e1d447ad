import Verif.Lemmas.Pcap

/-!
# C84: replaying and writing capture files
-/

namespace Bm.Pcap

open Bm.Pcap.Spec

/-- A file as it was added. -/
def mkFile (x : Nat × List (Option Rec)) : File := newFile x.1 x.2

/-- The loop of `start`. -/
theorem startFiles_spec : ∀ (files : List (Nat × List (Option Rec))) (n : Nat) (t : Option TV),
    (∀ x ∈ files, ∀ r, some r ∈ x.2 → Wf r.ts) → (∀ u, t = some u → Wf u) →
    ((∀ x ∈ files, HeadOk x.2) → ∃ fs n' t', startFiles (files.map mkFile) n t = some (fs, n', t') ∧
      fs.map queue = files.map (·.2) ∧ fs.map (·.port) = files.map (·.1) ∧ (∀ f ∈ fs, FileOk f) ∧
      n' = n + fs.countP (fun f => !f.atEOF) ∧ (∀ u, t' = some u → Wf u) ∧
      (∀ u, t = some u → ∃ u', t' = some u' ∧ us u' ≤ us u) ∧
      (∀ x ∈ files, ∀ r q, x.2 = some r :: q → ∃ u', t' = some u' ∧ us u' ≤ us r.ts) ∧
      (∀ u', t' = some u' → t = some u' ∨ ∃ x ∈ files, ∃ r q, x.2 = some r :: q ∧ r.ts = u')) ∧
    ((∃ x ∈ files, ¬ HeadOk x.2) → startFiles (files.map mkFile) n t = none)
  | [], n, t, _, ht => ⟨fun _ => ⟨[], n, t, rfl, rfl, rfl, fun f hf => (by cases hf), rfl, ht,
      fun u h => ⟨u, h, Int.le_refl _⟩, fun x hx => (by cases hx), fun u' h => .inl h⟩, fun ⟨x, hx, _⟩ => by cases hx⟩
  | (p, []) :: files, n, t, hw, ht => by
    obtain ⟨i1, i2⟩ := startFiles_spec files n t (fun x hx => hw x (by simp [hx])) ht
    have hm : (mkFile (p, [])).moveNext = some (⟨p, [], .atEnd⟩, false) := rfl
    refine ⟨fun hh => ?_, fun ⟨x, hx, hb⟩ => ?_⟩
    · obtain ⟨fs, n', t', e1, e2, e3, e4, e5, e6, e7, e8, e9⟩ := i1 (fun x hx => hh x (by simp [hx]))
      refine ⟨⟨p, [], .atEnd⟩ :: fs, n', t', ?_, ?_, ?_, ?_, ?_, e6, e7, ?_, ?_⟩
      · simp only [List.map_cons, startFiles, hm, e1, Option.bind_eq_bind, Option.bind_some]
        rfl
      · rw [List.map_cons, List.map_cons, e2]; rfl
      · rw [List.map_cons, List.map_cons, e3]
      · intro f hf
        rcases List.mem_cons.1 hf with rfl | hf
        · exact ⟨.inl rfl, fun r hr => by cases hr⟩
        · exact e4 f hf
      · rw [List.countP_cons, e5]; rfl
      · intro x hx r q hq
        rcases List.mem_cons.1 hx with rfl | hx
        · cases hq
        · exact e8 x hx r q hq
      · intro u' h
        rcases e9 u' h with h | ⟨x, hx, h⟩
        · exact .inl h
        · exact .inr ⟨x, by simp [hx], h⟩
    · rcases List.mem_cons.1 hx with rfl | hx
      · exact absurd (fun x t e => by cases e) hb
      · simp only [List.map_cons, startFiles, hm, i2 ⟨x, hx, hb⟩, Option.bind_eq_bind, Option.bind_some]
        rfl
  | (p, none :: q) :: files, n, t, hw, ht => by
    refine ⟨fun hh => ?_, fun _ => ?_⟩
    · obtain ⟨r, h, _⟩ := hh (p, none :: q) (by simp) none q rfl
      cases h
    · rfl
  | (p, some r :: q) :: files, n, t, hw, ht => by
    have hwr : Wf r.ts := hw (p, some r :: q) (by simp) r (by simp)
    have hfw : Wf (firstOf t r.ts) := by
      unfold firstOf
      split
      · exact hwr
      · split
        · exact hwr
        · exact ht _ rfl
    obtain ⟨i1, i2⟩ := startFiles_spec files (n + 1) (some (firstOf t r.ts))
      (fun x hx => hw x (by simp [hx])) (fun u h => by cases h; exact hfw)
    have hf1 : us (firstOf t r.ts) ≤ us r.ts := by
      unfold firstOf
      split
      · exact Int.le_refl _
      · rename_i u
        split
        · exact Int.le_refl _
        · rename_i h
          have : ¬ us r.ts < us u := fun h' => h ((tvLt_iff hwr (ht u rfl)).2 h')
          omega
    have hf2 : ∀ u, t = some u → us (firstOf t r.ts) ≤ us u := by
      intro u hu
      subst hu
      simp only [firstOf]
      split
      · rename_i h
        have := (tvLt_iff hwr (ht u rfl)).1 h
        omega
      · exact Int.le_refl _
    have hf3 : t = some (firstOf t r.ts) ∨ r.ts = firstOf t r.ts := by
      cases t with
      | none => exact .inr rfl
      | some u =>
        simp only [firstOf]
        split
        · exact .inr rfl
        · exact .inl rfl
    by_cases hc : r.caplen = r.len
    · have hm : (mkFile (p, some r :: q)).moveNext = some (⟨p, q, .reading r⟩, true) := by
        simp only [mkFile, newFile, File.moveNext]
        rw [if_neg (by simp [hc])]
      refine ⟨fun hh => ?_, fun ⟨x, hx, hb⟩ => ?_⟩
      · obtain ⟨fs, n', t', e1, e2, e3, e4, e5, e6, e7, e8, e9⟩ := i1 (fun x hx => hh x (by simp [hx]))
        obtain ⟨u0, g1, g2⟩ := e7 _ rfl
        refine ⟨⟨p, q, .reading r⟩ :: fs, n', t', ?_, ?_, ?_, ?_, ?_, e6, ?_, ?_, ?_⟩
        · simp only [List.map_cons, startFiles, hm, e1, Option.bind_eq_bind, Option.bind_some, File.current, if_true]
          rfl
        · rw [List.map_cons, List.map_cons, e2]; rfl
        · rw [List.map_cons, List.map_cons, e3]
        · intro f hf
          rcases List.mem_cons.1 hf with rfl | hf
          · exact ⟨.inr ⟨r, rfl, hc, hwr⟩, fun r' hr => hw (p, some r :: q) (by simp) r' (by simp; exact .inr hr)⟩
          · exact e4 f hf
        · have : (File.atEOF ⟨p, q, .reading r⟩) = false := by simp [File.atEOF]
          rw [List.countP_cons, e5, this]
          simp only [Bool.not_false, if_true]
          omega
        · intro u hu
          have := hf2 u hu
          exact ⟨u0, g1, by omega⟩
        · intro x hx r' q' hq
          rcases List.mem_cons.1 hx with rfl | hx
          · cases hq
            exact ⟨u0, g1, by omega⟩
          · exact e8 x hx r' q' hq
        · intro u' h
          rcases e9 u' h with h | ⟨x, hx, h⟩
          · cases h
            rcases hf3 with h | h
            · exact .inl h
            · exact .inr ⟨(p, some r :: q), by simp, r, q, rfl, h⟩
          · exact .inr ⟨x, by simp [hx], h⟩
      · rcases List.mem_cons.1 hx with rfl | hx
        · exact absurd (fun x t e => by cases e; exact ⟨r, rfl, hc⟩) hb
        · simp only [List.map_cons, startFiles, hm, i2 ⟨x, hx, hb⟩, Option.bind_eq_bind, Option.bind_some,
            File.current, if_true]
          rfl
    · refine ⟨fun hh => ?_, fun _ => ?_⟩
      · obtain ⟨r', h, hc'⟩ := hh (p, some r :: q) (by simp) (some r) q rfl
        cases h
        exact absurd hc' hc
      · simp only [List.map_cons, startFiles, mkFile, newFile, File.moveNext]
        rw [if_pos (by simp [hc])]
        rfl

/-- **C84**, for all files, all records (complete or not) and every clock: the reader ends, with or without an
error; without exactly if all records are complete.  The packets given to the handler are records of the files,
unchanged, with the port of their file: those of each file in its order, all of them if there is no error, none
that is incomplete.  If the records of each file are sorted by time, the packets are sorted by time, and packets
of the same time come in the order of the files.  If timing is respected, each packet is given to the handler
when its distance from the first packet has passed since the start, or at once if that time has passed. -/
theorem C84 {env : Env} (hn : ∀ k, Wf (env.now k)) {timing : Bool} {started : TV} (hst : Wf started)
    {files : List (Nat × List (Option Rec))} (hw : ∀ x ∈ files, ∀ r, some r ∈ x.2 → Wf r.ts)
    {fuel : Nat} (hfuel : (files.map fun x => x.2.length).sum < fuel) :
    ∃ (src : List (Nat × Rec)) (out : List Sent) (e : End) (first : TV),
      start env timing started fuel (files.map mkFile) = (out, e) ∧
      (e = .done ∨ e = .exited) ∧
      (e = .done ↔ ∀ x ∈ files, ∀ y ∈ x.2, Complete y) ∧
      Agree env (files.map (·.1))
        (if timing then some fun r => us started + (us r.ts - us first) else none) 0 src out ∧
      (∀ x0 xs, src = x0 :: xs → us first = us x0.2.ts) ∧
      (∀ x ∈ src, x.1 < files.length ∧ x.2.caplen = x.2.len) ∧
      (∀ i p q, files[i]? = some (p, q) → ∃ t, q = ofFile i src ++ t ∧ (e = .done → t = [])) ∧
      ((∀ x ∈ files, Sorted x.2) → src.Pairwise Before) := by
  obtain ⟨h1, h2⟩ := startFiles_spec files 0 none hw (fun u h => by cases h)
  by_cases hh : ∀ x ∈ files, HeadOk x.2
  · obtain ⟨fs, n', t', e1, e2, e3, e4, e5, e6, _, e8, e9⟩ := h1 hh
    have hz : Wf ⟨0, 0⟩ := ⟨Int.le_refl _, by decide⟩
    have hrd : ROk ⟨fs, n', timing, started, t'.getD ⟨0, 0⟩⟩ := by
      refine ⟨e4, by simp only; omega, hst, ?_⟩
      cases t' with
      | none => exact hz
      | some u => exact e6 u rfl
    obtain ⟨src, e, out, s1, s2, s3⟩ := scan_merge hn fuel 0 _ hrd (by
      simp only [left]
      rw [e2, List.map_map]
      exact hfuel)
    simp only at s2 s3
    rw [e2] at s2
    rw [e3] at s3
    have hho : ∀ q ∈ files.map (·.2), HeadOk q := by
      intro q hq
      obtain ⟨x, hx, rfl⟩ := List.mem_map.1 hq
      exact hh x hx
    obtain ⟨c1, c2⟩ := s2.complete hho
    refine ⟨src, out, e, t'.getD ⟨0, 0⟩, ?_, s2.ending, ?_, ?_, ?_, ?_, ?_, ?_⟩
    · simp only [start, e1, s1]
    · rw [c1]
      exact ⟨fun h x hx => h x.2 (List.mem_map_of_mem hx), fun h q hq => by
        obtain ⟨x, hx, rfl⟩ := List.mem_map.1 hq
        exact h x hx⟩
    · exact s3
    · intro x0 xs hx
      subst hx
      have key : ∀ {i r q}, (files.map (·.2))[i]? = some (some r :: q) → Earliest (files.map (·.2)) i r →
          us (t'.getD ⟨0, 0⟩) = us r.ts := by
        intro i r q hq he
        have hm := List.mem_of_getElem? hq
        obtain ⟨x, hx, hxq⟩ := List.mem_map.1 hm
        obtain ⟨u, hu, hle⟩ := e8 x hx r q hxq
        subst hu
        rcases e9 u rfl with h | ⟨y, hy, r', q', hy', hyt⟩
        · cases h
        · obtain ⟨j, hj⟩ := List.getElem?_of_mem hy
          have := (he j r' q' (by rw [List.getElem?_map, hj, Option.map_some, hy'])).1
          rw [hyt] at this
          simp only [Option.getD_some]
          omega
      cases s2 with
      | step a b _ _ => exact key a b
      | stop a b _ => exact key a b
    · intro x hx
      refine ⟨?_, c2 x hx⟩
      have := s2.index x hx
      simpa using this
    · intro i p q hq
      exact s2.files (by rw [List.getElem?_map, hq]; rfl)
    · intro hs
      refine s2.sorted (fun q hq => ?_) hho
      obtain ⟨x, hx, rfl⟩ := List.mem_map.1 hq
      exact hs x hx
  · have hb : ∃ x ∈ files, ¬ HeadOk x.2 := by
      apply Classical.byContradiction
      intro h
      exact hh fun x hx => Classical.byContradiction fun h' => h ⟨x, hx, h'⟩
    refine ⟨[], [], .exited, ⟨0, 0⟩, ?_, .inr rfl, ⟨fun h => (by cases h), fun h => ?_⟩, trivial,
      fun x0 xs h => (by cases h), fun x hx => (by cases hx), fun i p q _ => ⟨q, rfl, fun h => (by cases h)⟩,
      fun _ => .nil⟩
    · simp only [start, h2 hb]
    · obtain ⟨x, hx, h'⟩ := hb
      exact absurd (fun y t e => h x hx y (by rw [e]; simp)) h'

/-- **C84**, no packet is early: if sleeps last at least as long as asked for, every packet is given to the
handler not before its distance from the first packet has passed since the start. -/
theorem C84_not_early {env : Env} (hs : ∀ k d, us (env.now k) + us d ≤ us (env.wake k d)) {k : Nat} {due : Int}
    {t : TV} (h : Timed env k due t) : due ≤ us t := by
  rcases h with ⟨h1, rfl⟩ | ⟨h1, d, _, h2, rfl⟩
  · exact h1
  · have := hs k d
    omega

/-! ### Writing -/

theorem send_has (w : Writer) (p q : Nat) (d : Bytes) : (w.send p d).has q = w.has q := by
  unfold Writer.send Writer.has
  rw [List.any_map]
  congr 1
  funext x
  simp only [Function.comp]
  split <;> rfl

theorem add_has (w : Writer) (p q : Nat) : (w.add p).has q = (w.has q || p == q) := by
  unfold Writer.add
  unfold Writer.has
  rw [List.any_append]
  simp only [List.any_cons, List.any_nil, Bool.or_false]
  by_cases h : w.any (fun x => x.1 == some p)
  · rw [if_pos h]
    by_cases c : p = q
    · subst c; rw [h]; rfl
    · simp [c]
  · rw [if_neg h]
    by_cases c : p = q <;> simp [c]

/-- The files written for a port. -/
def filesOf (w : Writer) (p : Nat) : List (List Bytes) := (w.filter (fun x => x.1 == some p)).map (·.2)

theorem filesOf_send (w : Writer) (p q : Nat) (d : Bytes) :
    filesOf (w.send q d) p = if q = p then (filesOf w p).map (· ++ [d]) else filesOf w p := by
  unfold filesOf Writer.send
  induction w with
  | nil => simp
  | cons x w ih =>
    rw [List.map_cons, List.filter_cons]
    by_cases h : q = p
    · rw [if_pos h] at ih ⊢
      subst h
      by_cases hx : x.1 = some q
      · rw [if_pos hx]
        simp only [hx, beq_self_eq_true, if_true, List.map_cons, ih, List.filter_cons]
      · rw [if_neg hx]
        simp only [beq_iff_eq, hx, if_false, List.filter_cons, ih]
    · rw [if_neg h] at ih ⊢
      by_cases hx : x.1 = some q
      · rw [if_pos hx]
        have : ¬ x.1 = some p := by rw [hx]; simp [h]
        simp only [beq_iff_eq, this, if_false, List.filter_cons, ih]
      · rw [if_neg hx]
        simp only [List.filter_cons]
        split
        · simp only [List.map_cons, ih]
        · exact ih

theorem filesOf_add (w : Writer) (p q : Nat) :
    filesOf (w.add q) p = filesOf w p ++ if q = p ∧ w.has p = false then [[]] else [] := by
  unfold filesOf Writer.add
  rw [List.filter_append, List.map_append]
  congr 1
  by_cases h : q = p
  · subst h
    cases hh : w.has q <;> simp
  · cases hh : w.has q <;> simp [h]

theorem filesOf_has (w : Writer) (p : Nat) : w.has p = false ↔ filesOf w p = [] := by
  unfold filesOf Writer.has
  simp

theorem run_has : ∀ (os : List WOp) (w : Writer) (p : Nat) (l : List Bytes), filesOf w p = [l] →
    filesOf (w.run os) p = [l ++ os.filterMap (sentTo p)]
  | [], w, p, l, h => by simpa [Writer.run] using h
  | .add q :: os, w, p, l, h => by
    have hh : w.has p = true := by
      cases hc : w.has p with
      | true => rfl
      | false => rw [(filesOf_has w p).1 hc] at h; cases h
    simp only [Writer.run]
    rw [run_has os (w.add q) p l (by rw [filesOf_add, h, hh]; simp)]
    rfl
  | .send q d :: os, w, p, l, h => by
    simp only [Writer.run]
    by_cases c : q = p
    · rw [run_has os (w.send q d) p (l ++ [d]) (by rw [filesOf_send, if_pos c, h]; rfl)]
      simp [c, sentTo]
    · rw [run_has os (w.send q d) p l (by rw [filesOf_send, if_neg c, h])]
      simp [c, sentTo]

/-- **C84**, writing: a port for which files were added has one open file (the first), with exactly the packets
sent to the port since it was added, in order; packets sent to other ports are ignored. -/
theorem C84_written : ∀ (os : List WOp) (w : Writer) (p : Nat), w.has p = false →
    (.add p ∈ os → filesOf (w.run os) p = [written p os]) ∧ (.add p ∉ os → filesOf (w.run os) p = [])
  | [], w, p, h => ⟨fun hm => (by cases hm), fun _ => (filesOf_has _ _).1 h⟩
  | .add q :: os, w, p, h => by
    simp only [Writer.run]
    by_cases c : q = p
    · subst c
      refine ⟨fun _ => ?_, fun hm => absurd (List.mem_cons_self ..) hm⟩
      rw [run_has os (w.add q) q [] (by rw [filesOf_add, (filesOf_has _ _).1 h, h]; simp), List.nil_append]
      simp only [written, if_true]
    · obtain ⟨i1, i2⟩ := C84_written os (w.add q) p (by rw [add_has, h]; simp [c])
      refine ⟨fun hm => ?_, fun hm => i2 fun h => hm (List.mem_cons_of_mem _ h)⟩
      rcases List.mem_cons.1 hm with h | h
      · cases h; exact absurd rfl c
      · rw [i1 h]
        simp only [written, if_neg c]
  | .send q d :: os, w, p, h => by
    simp only [Writer.run]
    obtain ⟨i1, i2⟩ := C84_written os (w.send q d) p (by rw [send_has, h])
    refine ⟨fun hm => ?_, fun hm => i2 fun h => hm (List.mem_cons_of_mem _ h)⟩
    rcases List.mem_cons.1 hm with h | h
    · cases h
    · exact i1 h

/-! ### Concrete cases -/

namespace Ex

/-- Records of one byte. -/
def r (s u : Int) (b : UInt8) : Option Rec := some ⟨⟨s, u⟩, 1, 1, [b]⟩

/-- Three files (one is empty), with a tie at 1.5 seconds. -/
def files : List (Nat × List (Option Rec)) :=
  [(3, [r 1 500000 1, r 2 0 2]), (7, []), (5, [r 1 0 3, r 1 500000 4])]

/-- A clock: 10.9 seconds at each round, sleeps are exact. -/
def env : Env := ⟨fun _ => ⟨10, 900000⟩, fun _ d =>
  ⟨10 + d.sec + (900000 + d.usec) / 1000000, (900000 + d.usec) % 1000000⟩⟩

/-- The hypotheses of `C84` hold. -/
example : (∀ k, Wf (env.now k)) ∧ (∀ x ∈ files, ∀ r, some r ∈ x.2 → Wf r.ts) ∧
    (∀ x ∈ files, Sorted x.2) ∧ (∀ x ∈ files, ∀ y ∈ x.2, Complete y) ∧
    (files.map fun x => x.2.length).sum < 5 := by
  refine ⟨fun k => ⟨by simp [env], by simp [env]⟩, ?_, ?_, ?_, by decide⟩
  · intro x hx r' hr
    simp only [files, List.mem_cons, List.not_mem_nil, or_false] at hx
    rcases hx with rfl | rfl | rfl <;>
      simp only [r, List.mem_cons, List.not_mem_nil, or_false, Option.some.injEq] at hr
    · rcases hr with rfl | rfl <;> exact ⟨by decide, by decide⟩
    · rcases hr with rfl | rfl <;> exact ⟨by decide, by decide⟩
  · intro x hx
    simp only [files, List.mem_cons, List.not_mem_nil, or_false] at hx
    rcases hx with rfl | rfl | rfl
    · refine List.pairwise_pair.2 fun a b ha hb => ?_
      cases ha; cases hb; decide
    · exact .nil
    · refine List.pairwise_pair.2 fun a b ha hb => ?_
      cases ha; cases hb; decide
  · intro x hx y hy
    simp only [files, List.mem_cons, List.not_mem_nil, or_false] at hx
    rcases hx with rfl | rfl | rfl <;>
      simp only [r, List.mem_cons, List.not_mem_nil, or_false] at hy
    · rcases hy with rfl | rfl <;> exact ⟨_, rfl, rfl⟩
    · rcases hy with rfl | rfl <;> exact ⟨_, rfl, rfl⟩

/-- The packets in the order of their times; at 1.5 seconds the file added first is first.  The start was at 10.5
seconds: the first packet is late, the others wait for 0.1 and 0.6 seconds. -/
example : start env true ⟨10, 500000⟩ 5 (files.map mkFile) =
    ([⟨2, 5, [3], 1, some ⟨10, 900000⟩⟩, ⟨0, 3, [1], 1, some ⟨11, 0⟩⟩, ⟨2, 5, [4], 1, some ⟨11, 0⟩⟩,
      ⟨0, 3, [2], 1, some ⟨11, 500000⟩⟩], .done) := by
  decide +kernel

/-- An incomplete record ends the program, after the packet before it was sent. -/
example : start env false ⟨10, 500000⟩ 5 ([(3, [r 1 0 1, some ⟨⟨2, 0⟩, 1, 2, [9]⟩]), (4, [r 0 5 7])].map mkFile) =
    ([⟨1, 4, [7], 1, none⟩, ⟨0, 3, [1], 1, none⟩], .exited) := by
  decide +kernel

/-- The packets of unsorted files are not sorted. -/
example : start env false ⟨10, 500000⟩ 5 ([(3, [r 5 0 1, r 0 0 2]), (4, [r 1 0 7])].map mkFile) =
    ([⟨1, 4, [7], 1, none⟩, ⟨0, 3, [1], 1, none⟩, ⟨0, 3, [2], 1, none⟩], .done) := by
  decide +kernel

/-- A second file for a port stays empty. -/
example : Writer.run [] [.send 1 [0], .add 1, .add 2, .send 1 [1], .add 1, .send 1 [2], .send 9 [3], .send 2 [4]] =
    [(some 1, [[1], [2]]), (some 2, [[4]]), (none, [])] := by
  decide +kernel

end Ex

end Bm.Pcap
