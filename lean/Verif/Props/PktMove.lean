import Verif.Spec.PktMove

/-!
# C118: moving packets

Full statement: a packet moved (by construction or assignment) is the packet it was in all respects; in all executions header vectors go back
to the pool of the context they were made for, packets get one of their context, and the number in use is the number of packets.

False for truncation, table entry, error code and checksum error (`C118_refuted_…`), and for assignments across contexts.
-/

namespace Bm.PktMove

open Spec

/-! ## Lists -/

theorem countP_put {l : List (Option Pkt)} {i : Nat} {x y : Option Pkt} (h : l[i]? = some x) (f : Option Pkt → Bool) :
    (l.set i y).countP f + (if f x then 1 else 0) = l.countP f + (if f y then 1 else 0) := by
  induction l generalizing i with
  | nil => exact nomatch h
  | cons a l ih =>
    cases i with
    | zero =>
      simp only [List.getElem?_cons_zero, Option.some.injEq] at h
      subst h
      simp only [List.set_cons_zero, List.countP_cons]; omega
    | succ i =>
      simp only [List.getElem?_cons_succ] at h
      have := ih h
      simp only [List.set_cons_succ, List.countP_cons]; omega

theorem at_some {s : St} {i : Nat} {p : Pkt} (h : s.at? i = some p) : s.pkts[i]? = some (some p) := by
  unfold St.at? at h
  cases g : s.pkts[i]? with
  | none => rw [g] at h; exact nomatch h
  | some o => rw [g] at h; simp only [Option.getD_some] at h; rw [h]

theorem mem_put {l : List (Option Pkt)} {i : Nat} {x p : Option Pkt} (h : p ∈ l.set i x) : p = x ∨ p ∈ l :=
  (List.mem_or_eq_of_mem_set h).symm

theorem mem_of_at {s : St} {i : Nat} {p : Pkt} (h : s.at? i = some p) : some p ∈ s.pkts := List.mem_of_getElem? (at_some h)

/-! ## Steps -/

theorem home_edit {s : St} (h : Home s) (i : Nat) (f : Pkt → Pkt)
    (hf : ∀ p, (f p).cxt = p.cxt ∧ ((f p).phv.map Phv.home = p.phv.map Phv.home)) : Home (s.edit i f) := by
  unfold St.edit
  split
  · exact h
  · rename_i p hp
    have hh := hf p
    refine ⟨?_, h.pool, ?_⟩
    · intro q v hq hv
      rcases mem_put hq with e | e
      · injection e with e; subst e
        rw [hv] at hh
        cases hpv : p.phv with
        | none => rw [hpv] at hh; exact nomatch hh.2
        | some w =>
          rw [hpv] at hh
          have h2 := hh.2
          simp only [Option.map_some, Option.some.injEq] at h2
          rw [hh.1, h2]; exact h.pkts p w (mem_of_at hp) hpv
      · exact h.pkts q v e hv
    · intro c
      rw [show (s.put i (some (f p))).count c = s.count c from rfl, h.count c]
      have := countP_put (y := some (f p)) (at_some hp) (inUse c)
      have e : inUse c (some (f p)) = inUse c (some p) := by
        simp only [inUse, hh.1]
        congr 1
        have := congrArg Option.isSome hh.2
        simpa using this
      rw [e] at this
      show (_ : Int) = ((s.pkts.set i (some (f p))).countP (inUse c) : Int)
      omega

/-- Taking a header vector: it is of the context, the pools stay right, one more is in use. -/
theorem get_home {s : St} (h : ∀ c v, v ∈ s.pool c → v.home = c ∧ v.vals = []) (c : Nat) :
    (s.get c).1.home = c ∧ (s.get c).1.vals = [] ∧ (s.get c).2.pkts = s.pkts ∧
    (∀ d v, v ∈ (s.get c).2.pool d → v.home = d ∧ v.vals = []) ∧
    ∀ d, (s.get c).2.count d = s.count d + (if d = c then 1 else 0) := by
  have hc : ∀ d, upd s.count c (s.count c + 1) d = s.count d + (if d = c then 1 else 0) := by
    intro d; unfold upd; split
    · rename_i e; rw [e]
    · omega
  unfold St.get
  split
  · exact ⟨rfl, rfl, rfl, h, hc⟩
  · rename_i p hp
    have hm := h c p (List.mem_of_getLast? hp)
    refine ⟨hm.1, hm.2, rfl, ?_, hc⟩
    intro d v hv
    simp only [upd] at hv
    split at hv
    · rename_i e; subst e; exact h d v (List.dropLast_subset _ hv)
    · exact h d v hv

theorem release_home {s : St} (h : ∀ c v, v ∈ s.pool c → v.home = c ∧ v.vals = []) (c : Nat) (p : Phv) (hp : p.home = c) :
    (∀ d v, v ∈ (s.release c p).pool d → v.home = d ∧ v.vals = []) ∧
    ∀ d, (s.release c p).count d = s.count d - (if d = c then 1 else 0) := by
  constructor
  · intro d v hv
    simp only [St.release, upd] at hv
    split at hv
    · rename_i e; subst e
      rcases List.mem_append.1 hv with hv | hv
      · exact h d v hv
      · rw [List.mem_singleton.1 hv]; exact ⟨hp, rfl⟩
    · exact h d v hv
  · intro d
    simp only [St.release, upd]
    split
    · rename_i e; rw [e]
    · omega

theorem inUse_some {c : Nat} {p : Pkt} {v : Phv} (h : p.phv = some v) : (if inUse c (some p) then 1 else 0) = (if c = p.cxt then 1 else 0 : Nat) := by
  have : inUse c (some p) = decide (c = p.cxt) := by
    simp only [inUse, h, Option.isSome_some, Bool.true_and]
    by_cases e : p.cxt = c
    · simp [e]
    · have e2 : ¬ c = p.cxt := fun g => e g.symm
      simp [e, e2]
  rw [this]; by_cases e : c = p.cxt <;> simp [e]

theorem inUse_none {c : Nat} {p : Pkt} (h : p.phv = none) : inUse c (some p) = false := by simp [inUse, h]

theorem step_home {s : St} (h : Home s) (o : Op)
    (hw : ∀ i j, o = .moveAssign i j → ∀ p q, s.pkts[i]? = some (some p) → s.pkts[j]? = some (some q) → p.cxt = q.cxt) :
    Home (step s o) := by
  cases o with
  | truncate i n => exact home_edit h i _ (fun p => ⟨rfl, rfl⟩)
  | setErr i n => exact home_edit h i _ (fun p => ⟨rfl, rfl⟩)
  | setEntry i n => exact home_edit h i _ (fun p => ⟨rfl, rfl⟩)
  | setCksum i n => exact home_edit h i _ (fun p => ⟨rfl, rfl⟩)
  | write i vals => exact home_edit h i _ (fun p => ⟨rfl, by cases p.phv <;> rfl⟩)
  | create c port id data =>
    obtain ⟨g1, g2, g3, g4, g5⟩ := get_home h.pool c
    simp only [step]
    refine ⟨?_, g4, ?_⟩
    · intro p v hp hv
      rcases List.mem_append.1 hp with hp | hp
      · rw [g3] at hp; exact h.pkts p v hp hv
      · have := List.mem_singleton.1 hp
        injection this with this; subst this
        injection hv with hv; rw [← hv]; exact g1
    · intro d
      show (s.get c).2.count d = _
      rw [g5, h.count, List.countP_append, g3]
      simp only [List.countP_cons, List.countP_nil]
      rw [inUse_some (v := (s.get c).1) rfl]
      simp only
      split <;> omega
  | moveNew i =>
    simp only [step]
    split
    · exact h
    · rename_i p hp
      refine ⟨?_, h.pool, ?_⟩
      · intro q v hq hv
        rcases List.mem_append.1 hq with hq | hq
        · rcases mem_put hq with e | e
          · injection e with e; subst e; exact nomatch hv
          · exact h.pkts q v e hv
        · have := List.mem_singleton.1 hq
          injection this with this; subst this
          exact h.pkts p v (mem_of_at hp) hv
      · intro c
        show s.count c = _
        rw [h.count]
        show _ = (((s.pkts.set i (some (left p))) ++ [some (moved p)]).countP (inUse c) : Int)
        rw [List.countP_append]
        have := countP_put (y := some (left p)) (at_some hp) (inUse c)
        rw [inUse_none (p := left p) rfl] at this
        have e : inUse c (some (moved p)) = inUse c (some p) := rfl
        simp only [List.countP_cons, List.countP_nil, e]
        simp only [Bool.false_eq_true, if_false] at this
        omega
  | moveAssign i j =>
    simp only [step]
    split
    · rename_i p q hp hq
      split
      · exact h
      · rename_i hij
        have hc := hw i j rfl p q (at_some hp) (at_some hq)
        have hj : (s.pkts.set i (some (assigned p q)))[j]? = some (some q) := by
          rw [List.getElem?_set_ne hij]; exact at_some hq
        refine ⟨?_, h.pool, ?_⟩
        · intro r v hr hv
          rcases mem_put hr with e | e
          · injection e with e; subst e
            show v.home = q.cxt
            rw [← hc]; exact h.pkts p v (mem_of_at hp) hv
          · rcases mem_put e with e | e
            · injection e with e; subst e; exact h.pkts q v (mem_of_at hq) hv
            · exact h.pkts r v e hv
        · intro c
          show s.count c = (((s.pkts.set i (some (assigned p q))).set j (some (swapped p q))).countP (inUse c) : Int)
          rw [h.count]
          have h1 := countP_put (y := some (assigned p q)) (at_some hp) (inUse c)
          have h2 := countP_put (y := some (swapped p q)) hj (inUse c)
          have e1 : inUse c (some (assigned p q)) = inUse c (some q) := rfl
          have e2 : inUse c (some (swapped p q)) = inUse c (some p) := by
            show (p.phv.isSome && q.cxt == c) = (p.phv.isSome && p.cxt == c)
            rw [hc]
          rw [e1] at h1; rw [e2] at h2
          omega
    · exact h
  | changeContext i c =>
    simp only [step]
    split
    · exact h
    · rename_i p hp
      split
      · exact h
      · rename_i hne
        split
        · exact h
        · rename_i v hv
          obtain ⟨r1, r2⟩ := release_home h.pool p.cxt v (h.pkts p v (mem_of_at hp) hv)
          obtain ⟨g1, g2, g3, g4, g5⟩ := get_home r1 c
          have g3' : (St.get (s.release p.cxt v) c).2.pkts = s.pkts := g3
          refine ⟨?_, g4, ?_⟩
          · intro q w hq hw'
            rcases mem_put hq with e | e
            · injection e with e; subst e
              injection hw' with hw'; rw [← hw']; exact g1
            · rw [g3'] at e; exact h.pkts q w e hw'
          · intro d
            show (St.get (s.release p.cxt v) c).2.count d = (((St.get (s.release p.cxt v) c).2.pkts.set i _).countP (inUse d) : Int)
            rw [g3', g5, r2, h.count]
            have := countP_put (y := some { p with cxt := c, phv := some (St.get (s.release p.cxt v) c).1 }) (at_some hp) (inUse d)
            rw [inUse_some hv, inUse_some (v := (St.get (s.release p.cxt v) c).1) rfl] at this
            simp only at this
            split <;> split <;> simp_all <;> omega
  | destroy i =>
    simp only [step]
    split
    · exact h
    · rename_i p hp
      split
      · rename_i hv
        refine ⟨?_, h.pool, ?_⟩
        · intro q w hq hw'
          rcases mem_put hq with e | e
          · exact nomatch e
          · exact h.pkts q w e hw'
        · intro c
          show s.count c = ((s.pkts.set i none).countP (inUse c) : Int)
          rw [h.count]
          have := countP_put (y := none) (at_some hp) (inUse c)
          rw [inUse_none hv] at this
          simp only [inUse, Bool.false_eq_true, if_false] at this
          omega
      · rename_i v hv
        obtain ⟨r1, r2⟩ := release_home h.pool p.cxt v (h.pkts p v (mem_of_at hp) hv)
        refine ⟨?_, r1, ?_⟩
        · intro q w hq hw'
          rcases mem_put hq with e | e
          · exact nomatch e
          · exact h.pkts q w e hw'
        · intro c
          show (s.release p.cxt v).count c = ((s.pkts.set i none).countP (inUse c) : Int)
          rw [r2, h.count]
          have := countP_put (y := none) (at_some hp) (inUse c)
          rw [inUse_some hv] at this
          simp only [inUse, Bool.false_eq_true, if_false] at this
          split <;> simp_all <;> omega

theorem run_home (ops : List Op) : ∀ s, Home s → Within s ops → Home (run s ops) := by
  induction ops with
  | nil => intro s h _; exact h
  | cons o r ih =>
    intro s h hw
    have key : (∀ i j, o = .moveAssign i j → ∀ p q, s.pkts[i]? = some (some p) → s.pkts[j]? = some (some q) → p.cxt = q.cxt) ∧
        Within (step s o) r := by
      cases o with
      | moveAssign i j => exact ⟨fun a b e => by injection e with e1 e2; subst e1; subst e2; exact hw.1, hw.2⟩
      | _ => exact ⟨fun a b e => (nomatch e), hw⟩
    exact ih _ (step_home h o key.1) key.2

/-- In all executions with assignments within contexts, header vectors are where they belong; a packet created then gets a fresh one of its
context.  (Across contexts: `C118_refuted_pool`.) -/
theorem C118_partial (ops : List Op) (hw : Within {} ops) :
    Home (run {} ops) ∧
    ∀ c port id data, ∃ p v, (run {} (ops ++ [.create c port id data])).pkts = (run {} ops).pkts ++ [some p] ∧ p.phv = some v ∧
      v.home = c ∧ v.vals = [] ∧ p.cxt = c ∧ p.ingressPort = port ∧ p.id = id ∧ p.buffer = some data ∧ p.dataSize = data.length ∧
      p.ingressLen = data.length ∧ p.err = none ∧ p.cksumErr = false ∧ p.entry = none ∧ p.exit = false := by
  have h0 : Home {} := ⟨fun p v h => absurd h (by simp), fun c v h => absurd h (by simp), fun c => rfl⟩
  have hh := run_home ops {} h0 hw
  refine ⟨hh, fun c port id data => ?_⟩
  have ha : ∀ (l : List Op) s o, run s (l ++ [o]) = step (run s l) o := by
    intro l; induction l with
    | nil => intro s o; rfl
    | cons a l ih => intro s o; exact ih _ _
  obtain ⟨g1, g2, g3, g4, g5⟩ := get_home hh.pool c
  rw [ha]
  refine ⟨{ cxt := c, ingressPort := port, id := id, ingressLen := data.length, buffer := some data, phv := some ((run {} ops).get c).1 },
    _, ?_, rfl, g1, g2, rfl, rfl, rfl, rfl, rfl, rfl, rfl, rfl, rfl, rfl⟩
  simp only [step, g3]

/-- Two contexts, moves and a change of context. -/
def sample : List Op :=
  [.create 0 1 7 [1, 2], .create 0 2 8 [3], .write 0 [5], .moveNew 0, .moveAssign 1 2, .changeContext 1 1, .destroy 1, .destroy 0]

example : Within {} sample := by
  refine ⟨?_, trivial⟩
  intro p q hp hq
  have hp' : some p = (run {} (sample.take 4)).at? 1 := by rw [St.at?]; exact (congrArg (Option.getD · none) hp).symm
  have hq' : some q = (run {} (sample.take 4)).at? 2 := by rw [St.at?]; exact (congrArg (Option.getD · none) hq).symm
  have e1 : ((run {} (sample.take 4)).at? 1).map Pkt.cxt = some 0 := by decide +kernel
  have e2 : ((run {} (sample.take 4)).at? 2).map Pkt.cxt = some 0 := by decide +kernel
  rw [← hp'] at e1; rw [← hq'] at e2
  injection e1 with e1; injection e2 with e2; rw [e1, e2]

/-- A move: the new packet is the old one but for truncation, entry and errors, all other packets and the pools are as before, and the old one
gives nothing back when it is destroyed. -/
theorem C118_move (s : St) (i : Nat) (p : Pkt) (hp : s.pkts[i]? = some (some p)) :
    ∃ n l, Same n p ∧ n.trunc = none ∧ n.entry = none ∧ n.err = none ∧ n.cksumErr = false ∧
      (step s (.moveNew i)).pkts = s.pkts.set i (some l) ++ [some n] ∧
      (∀ c, (step s (.moveNew i)).pool c = s.pool c ∧ (step s (.moveNew i)).count c = s.count c) ∧
      ∀ c, (step (step s (.moveNew i)) (.destroy i)).pool c = s.pool c ∧ (step (step s (.moveNew i)) (.destroy i)).count c = s.count c := by
  have ha : s.at? i = some p := by rw [St.at?, hp]; rfl
  have hs : step s (.moveNew i) = { s with pkts := s.pkts.set i (some (left p)) ++ [some (moved p)] } := by
    simp only [step, ha]; rfl
  have hi : i < s.pkts.length := (List.getElem?_eq_some_iff.1 hp).1
  refine ⟨moved p, left p, ⟨rfl, rfl, rfl, rfl, rfl, rfl, rfl, rfl, rfl, rfl, rfl, rfl, rfl⟩, rfl, rfl, rfl, rfl, by rw [hs],
    fun c => by rw [hs]; exact ⟨rfl, rfl⟩, fun c => ?_⟩
  rw [hs]
  have ha2 : St.at? { s with pkts := s.pkts.set i (some (left p)) ++ [some (moved p)] } i = some (left p) := by
    rw [St.at?]
    show ((s.pkts.set i (some (left p)) ++ [some (moved p)])[i]?).getD none = _
    rw [List.getElem?_append_left (by rw [List.length_set]; exact hi), List.getElem?_set_self hi]; rfl
  have hn : (left p).phv = none := rfl
  simp only [step, ha2, hn]
  exact ⟨rfl, rfl⟩

/-- An assignment: the packet on the left becomes the one on the right, but keeps its own truncation, entry and errors; the right one keeps
the buffer and the header vector of the left one; all other packets and the pools are as before. -/
theorem C118_assign (s : St) (i j : Nat) (p q : Pkt) (hij : i ≠ j) (hp : s.pkts[i]? = some (some p)) (hq : s.pkts[j]? = some (some q)) :
    ∃ n m, Same n q ∧ n.trunc = p.trunc ∧ n.entry = p.entry ∧ n.err = p.err ∧ n.cksumErr = p.cksumErr ∧
      m.buffer = p.buffer ∧ m.phv = p.phv ∧ m.cxt = q.cxt ∧
      (step s (.moveAssign i j)).pkts = (s.pkts.set i (some n)).set j (some m) ∧
      ∀ c, (step s (.moveAssign i j)).pool c = s.pool c ∧ (step s (.moveAssign i j)).count c = s.count c := by
  have hap : s.at? i = some p := by rw [St.at?, hp]; rfl
  have haq : s.at? j = some q := by rw [St.at?, hq]; rfl
  have hs : step s (.moveAssign i j) = (s.put i (some (assigned p q))).put j (some (swapped p q)) := by
    simp only [step, hap, haq, if_neg hij]
  refine ⟨assigned p q, swapped p q, ⟨rfl, rfl, rfl, rfl, rfl, rfl, rfl, rfl, rfl, rfl, rfl, rfl, rfl⟩, rfl, rfl, rfl, rfl, rfl, rfl, rfl,
    by rw [hs]; rfl, fun c => by rw [hs]; exact ⟨rfl, rfl⟩⟩

/-- Setters change their packet in their field only; the smallest length given counts. -/
theorem C118_set (s : St) (i : Nat) (p : Pkt) (hp : s.pkts[i]? = some (some p)) :
    (∀ e, (step s (.setErr i e)).pkts = s.pkts.set i (some { p with err := some e })) ∧
    (∀ e, (step s (.setEntry i e)).pkts = s.pkts.set i (some { p with entry := some e })) ∧
    (∀ b, (step s (.setCksum i b)).pkts = s.pkts.set i (some { p with cksumErr := b })) ∧
    (∀ l v, p.phv = some v → (step s (.write i l)).pkts = s.pkts.set i (some { p with phv := some ⟨v.home, l⟩ })) ∧
    (∀ n, ∃ q, (step s (.truncate i n)).pkts = s.pkts.set i (some q) ∧ Same q p ∧ q.dataSize = min n p.dataSize ∧
      q.err = p.err ∧ q.entry = p.entry ∧ q.cksumErr = p.cksumErr) := by
  have ha : s.at? i = some p := by rw [St.at?, hp]; rfl
  refine ⟨fun e => by simp only [step, St.edit, ha]; rfl, fun e => by simp only [step, St.edit, ha]; rfl,
    fun e => by simp only [step, St.edit, ha]; rfl, fun l v hv => by simp only [step, St.edit, ha, hv]; rfl, fun n => ?_⟩
  refine ⟨{ p with trunc := some (match p.trunc with | none => n | some m => min n m) }, by simp only [step, St.edit, ha]; rfl,
    ⟨rfl, rfl, rfl, rfl, rfl, rfl, rfl, rfl, rfl, rfl, rfl, rfl, rfl⟩, ?_, rfl, rfl, rfl⟩
  cases h : p.trunc with
  | none => simp only [Pkt.dataSize, h]; omega
  | some m => simp only [Pkt.dataSize, h]; omega

/-- To another context: the packet keeps all but its header vector, which is a fresh one of the new context; its old one goes back to the pool
of the old context; other packets are as before.  Destroyed packets are gone. -/
theorem C118_context (s : St) (h : Home s) (i : Nat) (p : Pkt) (v : Phv) (hp : s.pkts[i]? = some (some p)) (hv : p.phv = some v) (c : Nat)
    (hc : p.cxt ≠ c) :
    (∃ w, (step s (.changeContext i c)).pkts = s.pkts.set i (some { p with cxt := c, phv := some w }) ∧ w = ⟨c, []⟩ ∧
      (step s (.changeContext i c)).pool p.cxt = s.pool p.cxt ++ [⟨p.cxt, []⟩]) ∧
    (step s (.destroy i)).pkts = s.pkts.set i none ∧ (step s (.destroy i)).pool p.cxt = s.pool p.cxt ++ [⟨p.cxt, []⟩] := by
  have ha : s.at? i = some p := by rw [St.at?, hp]; rfl
  have hm := h.pkts p v (mem_of_at ha) hv
  obtain ⟨r1, -⟩ := release_home h.pool p.cxt v hm
  obtain ⟨g1, g2, g3, -, -⟩ := get_home r1 c
  have hr : (s.release p.cxt v).pool p.cxt = s.pool p.cxt ++ [⟨p.cxt, []⟩] := by simp [St.release, upd, hm]
  have hg : ((s.release p.cxt v).get c).2.pool p.cxt = (s.release p.cxt v).pool p.cxt := by
    unfold St.get
    split
    · rfl
    · simp [upd, hc]
  refine ⟨⟨((s.release p.cxt v).get c).1, ?_, ?_, ?_⟩, ?_, ?_⟩
  · simp only [step, ha, if_neg hc, hv, St.put, g3]; rfl
  · generalize ((s.release p.cxt v).get c).1 = w at g1 g2
    obtain ⟨a, b⟩ := w
    simp only at g1 g2; rw [g1, g2]
  · simp only [step, ha, if_neg hc, hv, St.put]; rw [hg, hr]
  · simp only [step, ha, hv]; rfl
  · simp only [step, ha, hv, St.put]; exact hr

example : Home {} := ⟨fun p v h => absurd h (by simp), fun c v h => absurd h (by simp), fun c => rfl⟩

/-- A state for the theorems above: two packets, one of them truncated, with errors. -/
example : ∃ p q, (run {} [.create 0 1 7 [1, 2], .create 1 2 8 [3], .truncate 0 1, .setErr 0 3]).pkts = [some p, some q] ∧
    p.err = some 3 ∧ p.dataSize = 1 ∧ q.cxt = 1 := ⟨_, _, rfl, rfl, rfl, rfl⟩

/-- The error code, the checksum error, the entry and the truncation are lost when a packet is moved: it is sent in full length. -/
theorem C118_refuted_lost :
    ∃ p q, (run {} [.create 0 1 7 [1, 2, 3], .truncate 0 1, .setErr 0 3, .setEntry 0 4, .setCksum 0 true]).pkts[0]? = some (some p) ∧
      (run {} [.create 0 1 7 [1, 2, 3], .truncate 0 1, .setErr 0 3, .setEntry 0 4, .setCksum 0 true, .moveNew 0]).pkts[1]? = some (some q) ∧
      p.dataSize = 1 ∧ q.dataSize = 3 ∧ p.err = some 3 ∧ q.err = none ∧ p.entry = some 4 ∧ q.entry = none ∧
      p.cksumErr = true ∧ q.cksumErr = false := ⟨_, _, rfl, rfl, rfl, rfl, rfl, rfl, rfl, rfl, rfl, rfl⟩

/-- After an assignment across contexts a packet of context 1 gets a header vector of context 0, and the numbers in use are wrong: one in
context 0, where no packet is, which keeps the configuration of that context from being exchanged. -/
theorem C118_refuted_pool :
    ∃ s p, s = run {} [.create 0 1 7 [1], .create 1 2 8 [2], .moveAssign 0 1, .destroy 1, .create 1 3 9 [4]] ∧
      s.pkts[2]? = some (some p) ∧ p.cxt = 1 ∧ p.phv = some ⟨0, []⟩ ∧ s.count 0 = 1 ∧ s.pkts.countP (inUse 0) = 0 :=
  ⟨_, _, rfl, rfl, rfl, rfl, by decide +kernel, by decide +kernel⟩

end Bm.PktMove
