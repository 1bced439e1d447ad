import Verif.Spec.Const
import Mathlib.Data.List.Nodup

namespace Bm.Const

open Spec

theorem lookup_put {α β : Type} [DecidableEq α] (l : List (α × β)) (k k' : α) (v : β) :
    ((k, v) :: l).lookup k' = if k' = k then some v else l.lookup k' := by
  rw [List.lookup_cons]
  by_cases h : k' = k
  · subst h; simp
  · simp [beq_eq_false_iff_ne.2 h, h]

theorem lookup_mem {α β : Type} [DecidableEq α] {l : List (α × β)} {p : α × β} (h : p ∈ l) : (l.lookup p.1).isSome := by
  induction l with
  | nil => simp at h
  | cons q l ih =>
    rw [lookup_put]
    split
    · rfl
    · rename_i hn
      rcases List.mem_cons.1 h with rfl | h
      · exact absurd rfl hn
      · exact ih h

theorem isInt_iff (v : Int) : isInt v = true ↔ -2 ^ 31 ≤ v ∧ v ≤ 2 ^ 31 - 1 := by
  unfold isInt intMax; exact decide_eq_true_iff

/-! ## Errors -/

def Sync (m : ErrMap) : Prop := ∀ n v, m.values.lookup n = some v ↔ m.names.lookup v = some n

theorem add_new {m : ErrMap} {n : String} {v : Int} (hn : m.hasName n = false) (hv : m.hasValue v = false) :
    m.add n v = (⟨(v, n) :: m.names, (n, v) :: m.values⟩, true) := by simp [ErrMap.add, hn, hv]

theorem add_sync {m : ErrMap} (hs : Sync m) {n : String} {v : Int} (hn : m.hasName n = false) (hv : m.hasValue v = false) :
    Sync ⟨(v, n) :: m.names, (n, v) :: m.values⟩ := by
  simp only [ErrMap.hasName, ErrMap.hasValue, Option.isSome_eq_false_iff, Option.isNone_iff_eq_none] at hn hv
  intro n' v'
  simp only [lookup_put]
  by_cases h1 : n' = n <;> by_cases h2 : v' = v
  · simp [h1, h2]
  · subst h1
    simp only [if_pos, if_neg h2]
    constructor
    · intro h; exact absurd (Option.some.inj h).symm h2
    · intro h; have := (hs n' v').2 h; rw [hn] at this; exact absurd this (by simp)
  · subst h2
    simp only [if_neg h1, if_pos]
    constructor
    · intro h; have := (hs n' v').1 h; rw [hv] at this; exact absurd this (by simp)
    · intro h; exact absurd (Option.some.inj h).symm h1
  · simp only [if_neg h1, if_neg h2]; exact hs n' v'

def Has (m : ErrMap) (es : List (String × Int)) : Prop := ∀ n v, m.values.lookup n = some v ↔ (n, v) ∈ es

theorem has_name {m : ErrMap} {es : List (String × Int)} (h : Has m es) (n : String) : m.hasName n = true ↔ n ∈ es.map Prod.fst := by
  rw [ErrMap.hasName, Option.isSome_iff_exists, List.mem_map]
  constructor
  · rintro ⟨v, hv⟩; exact ⟨(n, v), (h n v).1 hv, rfl⟩
  · rintro ⟨⟨a, v⟩, hm, rfl⟩; exact ⟨v, (h a v).2 hm⟩

theorem has_value {m : ErrMap} {es : List (String × Int)} (hs : Sync m) (h : Has m es) (v : Int) :
    m.hasValue v = true ↔ v ∈ es.map Prod.snd := by
  rw [ErrMap.hasValue, Option.isSome_iff_exists, List.mem_map]
  constructor
  · rintro ⟨n, hn⟩; exact ⟨(n, v), (h n v).1 ((hs n v).2 hn), rfl⟩
  · rintro ⟨⟨n, b⟩, hm, rfl⟩; exact ⟨n, (hs n b).1 ((h n b).2 hm)⟩

theorem unique_snoc {es : List (String × Int)} (h : Unique es) {n : String} {v : Int} (hn : n ∉ es.map Prod.fst)
    (hv : v ∉ es.map Prod.snd) : Unique (es ++ [(n, v)]) := by
  refine ⟨?_, ?_⟩
  · rw [List.map_append]
    exact List.Nodup.append h.1 (by simp) (by simpa using hn)
  · rw [List.map_append]
    exact List.Nodup.append h.2 (by simp) (by simpa using hv)

theorem not_unique {es rest : List (String × Int)} {n : String} {v : Int}
    (h : n ∈ es.map Prod.fst ∨ v ∈ es.map Prod.snd) : ¬ Unique (es ++ (n, v) :: rest) := by
  rintro ⟨h1, h2⟩
  rw [List.map_append] at h1 h2
  rcases h with h | h
  · exact (List.disjoint_of_nodup_append h1) h (by simp)
  · exact (List.disjoint_of_nodup_append h2) h (by simp)

theorem addErrors_spec (es : List (String × Int)) : ∀ (m : ErrMap) (pre : List (String × Int)), Sync m → Has m pre → Unique pre →
    (∀ p ∈ es, isInt p.2 = true) →
    (Unique (pre ++ es) → ∃ m', addErrors m es = .ok m' ∧ Sync m' ∧ Has m' (pre ++ es)) ∧
    (¬ Unique (pre ++ es) → addErrors m es = .refused) := by
  induction es with
  | nil =>
    intro m pre hs hh hu _
    refine ⟨fun _ => ⟨m, rfl, hs, by simpa using hh⟩, fun h => absurd (by simpa using hu) h⟩
  | cons p es ih =>
    intro m pre hs hh hu hi
    obtain ⟨n, v⟩ := p
    have hint : isInt v = true := hi (n, v) (by simp)
    simp only [addErrors, hint, if_pos]
    by_cases hp : n ∈ pre.map Prod.fst ∨ v ∈ pre.map Prod.snd
    · refine ⟨fun h => absurd h (not_unique hp), fun _ => ?_⟩
      have : m.add n v = (m, false) := by
        rw [ErrMap.add, if_pos]
        rw [Bool.or_eq_true, has_name hh, has_value hs hh]; exact hp
      rw [this]; simp
    · obtain ⟨hpn, hpv⟩ := not_or.1 hp
      have hn : m.hasName n = false := by
        rw [← Bool.not_eq_true, has_name hh]; exact hpn
      have hv : m.hasValue v = false := by
        rw [← Bool.not_eq_true, has_value hs hh]; exact hpv
      rw [add_new hn hv]
      simp only [if_pos]
      have hh' : Has ⟨(v, n) :: m.names, (n, v) :: m.values⟩ (pre ++ [(n, v)]) := by
        intro n' v'
        simp only [lookup_put, List.mem_append, List.mem_singleton, Prod.mk.injEq]
        by_cases h1 : n' = n
        · subst h1
          simp only [if_pos]
          constructor
          · intro h; exact .inr ⟨trivial, (Option.some.inj h).symm⟩
          · rintro (h | ⟨_, rfl⟩)
            · exact absurd (List.mem_map.2 ⟨_, h, rfl⟩) hpn
            · rfl
        · simp only [h1, if_false, false_and, or_false]; exact hh n' v'
      have := ih _ _ (add_sync hs hn hv) hh' (unique_snoc hu hpn hpv) (fun p hp => hi p (by simp [hp]))
      simpa only [List.append_assoc, List.singleton_append] using this

theorem maxKey_none {l : List (Int × String)} (h : maxKey l = none) : l = [] := by
  cases l with
  | nil => rfl
  | cons p l =>
    exfalso
    rw [maxKey] at h
    cases hk : maxKey l <;> simp [hk] at h

theorem maxKey_some {l : List (Int × String)} {k : Int} (h : maxKey l = some k) :
    (∀ p ∈ l, p.1 ≤ k) ∧ ∃ p ∈ l, p.1 = k := by
  induction l generalizing k with
  | nil => simp [maxKey] at h
  | cons p l ih =>
    rw [maxKey] at h
    cases hk : maxKey l with
    | none =>
      have : l = [] := maxKey_none hk
      subst this
      simp only [hk, Option.some.injEq] at h
      subst h
      simp
    | some j =>
      simp only [hk, Option.some.injEq] at h
      obtain ⟨h1, q, hq, hqj⟩ := ih hk
      split at h
      · subst h
        refine ⟨?_, p, by simp, rfl⟩
        intro r hr
        rcases List.mem_cons.1 hr with rfl | hr
        · exact Int.le_refl _
        · have := h1 r hr; omega
      · subst h
        refine ⟨?_, q, by simp [hq], hqj⟩
        intro r hr
        rcases List.mem_cons.1 hr with rfl | hr
        · omega
        · exact h1 r hr

theorem lookup_in {α β : Type} [DecidableEq α] {l : List (α × β)} {k : α} {v : β} (h : l.lookup k = some v) : (k, v) ∈ l := by
  induction l with
  | nil => simp at h
  | cons q l ih =>
    obtain ⟨a, b⟩ := q
    rw [lookup_put] at h
    split at h
    · rename_i hk; subst hk; simp at h; subst h; simp
    · exact List.mem_cons_of_mem _ (ih h)

theorem addMissing_spec (ns : List String) : ∀ (m : ErrMap) (next : Int), Sync m →
    (∀ v n, m.names.lookup v = some n → 0 ≤ v ∧ v < next) → 0 ≤ next →
    next + (ns.countP (fun n => !m.hasName n) : Nat) ≤ intMax →
    ∃ m', addMissing m next ns = some m' ∧ Sync m' ∧
      (∀ n v, m.values.lookup n = some v → m'.values.lookup n = some v) ∧
      (∀ n ∈ ns, ∃ v, m'.values.lookup n = some v) ∧
      (∀ n v, m'.values.lookup n = some v → m.values.lookup n = some v ∨ n ∈ ns) ∧
      (∀ v n, m'.names.lookup v = some n → 0 ≤ v ∧ v < intMax) := by
  induction ns with
  | nil =>
    intro m next hs hr h0 hle
    refine ⟨m, rfl, hs, fun _ _ h => h, by simp, fun _ _ h => .inl h, fun v n h => ?_⟩
    have := hr v n h
    simp at hle; omega
  | cons n ns ih =>
    intro m next hs hr h0 hle
    rw [addMissing]
    by_cases hn : m.hasName n = true
    · rw [if_pos hn]
      rw [List.countP_cons_of_neg (by simp [hn])] at hle
      obtain ⟨m', h1, h2, h3, h4, h5, h6⟩ := ih m next hs hr h0 hle
      refine ⟨m', h1, h2, h3, ?_, fun a b h => (h5 a b h).imp id (List.mem_cons_of_mem _), h6⟩
      intro a ha
      rcases List.mem_cons.1 ha with rfl | ha
      · obtain ⟨v, hv⟩ := Option.isSome_iff_exists.1 hn
        exact ⟨v, h3 _ _ hv⟩
      · exact h4 a ha
    · rw [if_neg hn]
      have hnf : m.hasName n = false := by simpa using hn
      rw [List.countP_cons_of_pos (by simp [hnf])] at hle
      have hne : next ≠ intMax := by push_cast at hle; omega
      rw [if_neg hne]
      have hv : m.hasValue next = false := by
        rw [ErrMap.hasValue]
        cases hl : m.names.lookup next with
        | none => rfl
        | some a => have := hr _ _ hl; omega
      rw [add_new hnf hv]
      have hmono : ns.countP (fun a => !(⟨(next, n) :: m.names, (n, next) :: m.values⟩ : ErrMap).hasName a) ≤
          ns.countP (fun a => !m.hasName a) := by
        apply List.countP_mono_left
        intro a _ ha
        simp only [ErrMap.hasName, lookup_put, Bool.not_eq_true', Option.isSome_eq_false_iff, Option.isNone_iff_eq_none] at ha ⊢
        split at ha
        · simp at ha
        · exact ha
      obtain ⟨m', h1, h2, h3, h4, h5, h6⟩ := ih ⟨(next, n) :: m.names, (n, next) :: m.values⟩ (next + 1) (add_sync hs hnf hv)
        (by
          intro v a h
          simp only [lookup_put] at h
          split at h
          · omega
          · have := hr _ _ h; omega)
        (by omega) (by push_cast at hle; omega)
      have hnone : m.values.lookup n = none := by
        simpa [ErrMap.hasName, Option.isSome_eq_false_iff] using hnf
      refine ⟨m', h1, h2, ?_, ?_, ?_, h6⟩
      · intro a v h
        apply h3
        simp only [lookup_put]
        rw [if_neg]
        · exact h
        · rintro rfl; rw [hnone] at h; simp at h
      · intro a ha
        rcases List.mem_cons.1 ha with rfl | ha
        · exact ⟨next, h3 _ _ (by simp)⟩
        · exact h4 a ha
      · intro a v h
        rcases h5 a v h with h | h
        · simp only [lookup_put] at h
          split at h
          · rename_i e; right; simp [e]
          · exact .inl h
        · exact .inr (List.mem_cons_of_mem _ h)

theorem loadErrors_spec {es : List (String × Int)} (hu : Unique es)
    (hr : ∀ p ∈ es, 0 ≤ p.2 ∧ p.2 + (undeclared es).length < 2 ^ 31 - 1) :
    ∃ m, loadErrors es = .ok m ∧ Sync m ∧ Meaning es m.fromName := by
  have hi : ∀ p ∈ es, isInt p.2 = true := by
    intro p hp; have := hr p hp; rw [isInt_iff]; omega
  obtain ⟨m, h1, hs, hh⟩ := (addErrors_spec es {} [] (by intro n v; simp) (by intro n v; simp) ⟨by simp, by simp⟩ hi).1 (by simpa using hu)
  rw [List.nil_append] at hh
  have hcount : coreNames.countP (fun n => !m.hasName n) = (undeclared es).length := by
    rw [undeclared, ← List.countP_eq_length_filter]
    apply List.countP_congr
    intro n _
    rw [Bool.not_eq_true', ← Bool.not_eq_true, has_name hh, decide_eq_true_iff]
  have key : ∃ next, 0 ≤ next ∧ m.addCore = addMissing m next coreNames ∧ (∀ v n, m.names.lookup v = some n → 0 ≤ v ∧ v < next) ∧
      next + (coreNames.countP (fun n => !m.hasName n) : Nat) ≤ intMax := by
    rw [ErrMap.addCore]
    cases hk : maxKey m.names with
    | none =>
      refine ⟨0, Int.le_refl _, rfl, ?_, ?_⟩
      · rw [maxKey_none hk]; simp
      · have := List.countP_le_length (p := fun n => !m.hasName n) (l := coreNames)
        simp only [coreNames, List.length_cons, List.length_nil] at this
        simp only [intMax, coreNames]
        omega
    | some k =>
      obtain ⟨h2, p, hp, hpk⟩ := maxKey_some hk
      obtain ⟨n, hn⟩ := Option.isSome_iff_exists.1 (lookup_mem hp)
      have hmem := (hh _ _).1 ((hs _ _).2 hn)
      have hb := hr _ hmem
      rw [hpk] at hb
      simp only at hb
      refine ⟨k + 1, by omega, ?_, ?_, ?_⟩
      · have hne : k ≠ intMax := by simp only [intMax]; omega
        simp only [if_neg hne]
      · intro v n hvn
        have h3 := hr _ ((hh _ _).1 ((hs _ _).2 hvn))
        have h4 := h2 _ (lookup_in hvn)
        simp only at h3 h4
        omega
      · rw [hcount]; simp only [intMax]; omega
  obtain ⟨next, h0, hac, hlt, hle⟩ := key
  obtain ⟨m', g1, g2, g3, g4, g5, g6⟩ := addMissing_spec coreNames m next hs hlt h0 hle
  refine ⟨m', ?_, g2, ?_⟩
  · simp only [loadErrors, h1, hac, g1]
  · refine ⟨fun n v h => g3 n v ((hh n v).2 h), g4, fun n v h => (g5 n v h).imp (hh n v).1 id, ?_, ?_⟩
    · intro n n' v h h'
      have a := (g2 n v).1 h
      have b := (g2 n' v).1 h'
      rw [a] at b; exact Option.some.inj b
    · intro n v h
      have := g6 v n ((g2 n v).1 h)
      simpa only [intMax] using this

theorem loadErrors_refused {es : List (String × Int)} (hi : ∀ p ∈ es, isInt p.2 = true) : loadErrors es = .refused ↔ ¬ Unique es := by
  have hs := addErrors_spec es {} [] (by intro n v; simp) (by intro n v; simp) ⟨by simp, by simp⟩ hi
  simp only [List.nil_append] at hs
  constructor
  · intro h hu
    obtain ⟨m, h1, -⟩ := hs.1 hu
    rw [loadErrors, h1] at h
    cases hc : m.addCore <;> simp [hc] at h
  · intro h
    rw [loadErrors, hs.2 h]

/-! ## Packets -/

theorem packetCode_spec {es : List (String × Int)} {m : ErrMap} (hs : Sync m) (hm : Meaning es m.fromName) {e : Option Parse.Err}
    (ha : ∀ v, e = some (.arch v) → ∃ n, m.fromName n = some v) :
    packetCode m e = final m.fromName e ∧ ∃ v n, final m.fromName e = some v ∧ m.fromName n = some v := by
  have core : ∀ n ∈ Spec.core, ∃ v, m.fromName n = some v ∧ m.toName v = some n := by
    intro n hn
    obtain ⟨v, hv⟩ := hm.core n hn
    exact ⟨v, hv, (hs n v).1 hv⟩
  cases e with
  | none =>
    obtain ⟨v, hv, -⟩ := core "NoError" (by decide)
    exact ⟨rfl, v, _, hv, hv⟩
  | some e =>
    cases e with
    | packetTooShort =>
      obtain ⟨v, hv, ht⟩ := core "PacketTooShort" (by decide)
      exact ⟨by simp [packetCode, code, final, hv, ht], v, _, hv, hv⟩
    | headerTooShort =>
      obtain ⟨v, hv, ht⟩ := core "HeaderTooShort" (by decide)
      exact ⟨by simp [packetCode, code, final, hv, ht], v, _, hv, hv⟩
    | stackOutOfBounds =>
      obtain ⟨v, hv, ht⟩ := core "StackOutOfBounds" (by decide)
      exact ⟨by simp [packetCode, code, final, hv, ht], v, _, hv, hv⟩
    | invalidArgument =>
      obtain ⟨v, hv, ht⟩ := core "ParserInvalidArgument" (by decide)
      exact ⟨by simp [packetCode, code, final, hv, ht], v, _, hv, hv⟩
    | arch v =>
      obtain ⟨n, hn⟩ := ha v rfl
      have ht : m.toName v = some n := (hs n v).1 hn
      exact ⟨by simp [packetCode, code, final, ht], v, n, rfl, hn⟩

theorem opAdvance_arch {pkt : Parse.Pkt} {st st' : Parse.St} {bits : Nat} {v : Int} : Parse.opAdvance pkt st bits ≠ (st', some (.arch v)) := by
  unfold Parse.opAdvance; split
  · simp
  · split <;> simp

theorem extractFixed_arch {pkt : Parse.Pkt} {st st' : Parse.St} {h : Nat} {len : Phv → Option Int} {v : Int} :
    Parse.extractFixed pkt st h len ≠ some (st', some (.arch v)) := by
  intro hh
  simp only [Parse.extractFixed, bind, Option.bind_eq_some_iff] at hh
  obtain ⟨a, -, hh⟩ := hh
  split at hh
  · simp [pure] at hh
  · simp [Option.bind_eq_some_iff, pure] at hh

theorem extractVar_arch {pkt : Parse.Pkt} {st st' : Parse.St} {h max : Nat} {len : Phv → Option Int} {v : Int} :
    Parse.extractVar pkt st h len max ≠ some (st', some (.arch v)) := by
  intro hh
  simp only [Parse.extractVar, bind, Option.bind_eq_some_iff] at hh
  obtain ⟨a, -, hh⟩ := hh
  split at hh
  · simp [pure] at hh
  · simp only [Option.bind_eq_some_iff] at hh
    obtain ⟨b, -, c, -, hh⟩ := hh
    split at hh
    · simp [pure] at hh
    · split at hh
      · simp [pure] at hh
      · split at hh
        · simp at hh
        · simp [Option.bind_eq_some_iff, pure] at hh

theorem extractNext_arch {pkt : Parse.Pkt} {st st' : Parse.St} {h max : Nat} {len : Phv → Option Int} {v : Int} :
    Parse.extractNext pkt st h len max ≠ some (st', some (.arch v)) := by
  unfold Parse.extractNext
  split
  · exact extractFixed_arch
  · exact extractVar_arch

theorem pushStack_arch {s : Nat} {r : Parse.Res} {st' : Parse.St} {v : Int} (h : Parse.pushStack s r = some (st', some (.arch v))) :
    r = (st', some (.arch v)) := by
  obtain ⟨st, e⟩ := r
  cases e with
  | none => simp [Parse.pushStack, bind, Option.bind_eq_some_iff, pure] at h
  | some e => simpa [Parse.pushStack] using h

theorem pushUnionStack_arch {s : Nat} {r : Parse.Res} {st' : Parse.St} {v : Int}
    (h : Parse.pushUnionStack s r = some (st', some (.arch v))) : r = (st', some (.arch v)) := by
  obtain ⟨st, e⟩ := r
  cases e with
  | none => simp [Parse.pushUnionStack, bind, Option.bind_eq_some_iff, pure] at h
  | some e => simpa [Parse.pushUnionStack] using h

theorem exec_arch {val : String → Option Int} {rz : Bool} {pkt : Parse.Pkt} {st st' : Parse.St} {op : Parse.Op} {v : Int}
    (hr : Raises val op) (h : op.exec rz pkt st = some (st', some (.arch v))) : ∃ n, val n = some v := by
  cases op with
  | extract a len => exact absurd h extractFixed_arch
  | extractVL a len max => exact absurd h extractVar_arch
  | extractStack s len max =>
    simp only [Parse.Op.exec, bind, Option.bind_eq_some_iff] at h
    obtain ⟨stk, -, h⟩ := h
    split at h
    · simp [pure] at h
    · simp only [Option.bind_eq_some_iff] at h
      obtain ⟨a, -, r, h1, h⟩ := h
      rw [pushStack_arch h] at h1
      exact absurd h1 extractNext_arch
  | extractUnionStack s i len max =>
    simp only [Parse.Op.exec, bind, Option.bind_eq_some_iff] at h
    obtain ⟨stk, -, h⟩ := h
    split at h
    · simp [pure] at h
    · simp only [Option.bind_eq_some_iff] at h
      obtain ⟨a, -, u, -, b, -, r, h1, h⟩ := h
      rw [pushUnionStack_arch h] at h1
      exact absurd h1 extractNext_arch
  | setLookahead a f l =>
    simp only [Parse.Op.exec, Parse.opSetLookahead, bind] at h
    split at h
    · simp [pure] at h
    · simp [Option.bind_eq_some_iff, pure] at h
  | shift n =>
    simp only [Parse.Op.exec, Parse.opShift] at h
    split at h <;> simp at h
  | advance bits =>
    simp only [Parse.Op.exec, bind, Option.bind_eq_some_iff, pure] at h
    obtain ⟨b, -, h⟩ := h
    exact absurd (Option.some.inj h) opAdvance_arch
  | verify c err =>
    simp only [Parse.Op.exec, Parse.opVerify, bind, Option.bind_eq_some_iff, pure] at h
    obtain ⟨b, -, h⟩ := h
    split at h
    · simp at h
    · simp only [Option.bind_eq_some_iff, Option.some.injEq, Prod.mk.injEq, Parse.Err.arch.injEq] at h
      obtain ⟨w, hw, -, rfl⟩ := h
      exact hr _ _ hw
  | phvOp f => simp [Parse.Op.exec, bind, Option.bind_eq_some_iff, pure] at h

theorem execOps_arch {val : String → Option Int} {rz : Bool} {pkt : Parse.Pkt} {ops : List Parse.Op} : ∀ {st st' : Parse.St} {v : Int},
    (∀ op ∈ ops, Raises val op) → Parse.execOps rz pkt st ops = some (st', some (.arch v)) → ∃ n, val n = some v := by
  induction ops with
  | nil => intro st st' v _ h; simp [Parse.execOps] at h
  | cons op ops ih =>
    intro st st' v hr h
    simp only [Parse.execOps, bind, Option.bind_eq_some_iff] at h
    obtain ⟨⟨st1, e⟩, h1, h⟩ := h
    cases e with
    | none => exact ih (fun o ho => hr o (by simp [ho])) h
    | some e =>
      simp only [pure, Option.some.injEq, Prod.mk.injEq] at h
      obtain ⟨rfl, rfl⟩ := h
      exact exec_arch (hr op (by simp)) h1

theorem loop_arch {val : String → Option Int} {rz : Bool} {pkt : Parse.Pkt} {states : List Parse.PState}
    (hr : ∀ s ∈ states, ∀ op ∈ s.ops, Raises val op) (fuel : Nat) : ∀ {i : Option Nat} {st st' : Parse.St} {v : Int},
    Parse.loop rz states pkt fuel i st = some (some (st', some (.arch v))) → ∃ n, val n = some v := by
  induction fuel with
  | zero =>
    intro i st st' v h
    cases i <;> simp [Parse.loop] at h
  | succ fuel ih =>
    intro i st st' v h
    cases i with
    | none => simp [Parse.loop] at h
    | some i =>
      simp only [Parse.loop, bind, Option.bind_eq_some_iff] at h
      obtain ⟨s, hs, ⟨⟨st1, e⟩, nx⟩, h1, h⟩ := h
      cases e with
      | none => exact ih h
      | some e =>
        simp only [pure, Option.some.injEq, Prod.mk.injEq] at h
        obtain ⟨rfl, rfl⟩ := h
        simp only [Parse.PState.next, bind, Option.bind_eq_some_iff] at h1
        obtain ⟨⟨st2, e2⟩, h2, h1⟩ := h1
        cases e2 with
        | none =>
          cases hsel : s.sel with
          | none => simp [hsel, pure] at h1
          | some x => simp [hsel, pure, Option.bind_eq_some_iff] at h1
        | some e2 =>
          simp only [pure, Option.some.injEq, Prod.mk.injEq] at h1
          obtain ⟨⟨rfl, rfl⟩, -⟩ := h1
          exact execOps_arch (fun o ho => hr s (List.mem_of_getElem? hs) o ho) h2

theorem parse_arch {val : String → Option Int} {rz : Bool} {states : List Parse.PState} {init : Option Nat} {data pl : Bytes}
    {trunc fuel : Nat} {phv : Phv} {st : Parse.St} {v : Int} (hr : ∀ s ∈ states, ∀ op ∈ s.ops, Raises val op)
    (h : Parse.parse rz states init data trunc fuel phv = some (some ((st, some (.arch v)), pl))) : ∃ n, val n = some v := by
  simp only [Parse.parse, bind, Option.bind_eq_some_iff] at h
  obtain ⟨r, h1, h⟩ := h
  cases r with
  | none => simp [pure] at h
  | some r =>
    obtain ⟨st1, e⟩ := r
    simp only at h
    split at h
    · simp only [pure, Option.some.injEq, Prod.mk.injEq] at h
      obtain ⟨⟨rfl, rfl⟩, -⟩ := h
      exact loop_arch hr fuel h1
    · simp at h

/-! ## Enums -/

theorem dot_inj {a a' b b' : List Char} (h : a ++ '.' :: b = a' ++ '.' :: b') (hb : '.' ∉ b) (hb' : '.' ∉ b') : a = a' ∧ b = b' := by
  rcases List.append_eq_append_iff.1 h with ⟨c, h1, h2⟩ | ⟨c, h1, h2⟩
  · cases c with
    | nil => simp at h1 h2; exact ⟨h1.symm, h2⟩
    | cons x c =>
      simp only [List.cons_append, List.cons.injEq] at h2
      exact absurd (by rw [h2.2]; simp) hb
  · cases c with
    | nil => simp at h1 h2; exact ⟨h1, h2.symm⟩
    | cons x c =>
      simp only [List.cons_append, List.cons.injEq] at h2
      exact absurd (by rw [h2.2]; simp) hb'

theorem full_inj {e e' n n' : String} (h : e ++ "." ++ n = e' ++ "." ++ n') (hn : NoDot n) (hn' : NoDot n') : e = e' ∧ n = n' := by
  have h' := congrArg String.toList h
  simp only [String.toList_append] at h'
  have hd : (".":String).toList = ['.'] := rfl
  rw [hd, List.append_assoc, List.append_assoc, List.singleton_append, List.singleton_append] at h'
  obtain ⟨h1, h2⟩ := dot_inj h' hn hn'
  exact ⟨String.toList_inj.1 h1, String.toList_inj.1 h2⟩

/-- The state after the enums `ds`. -/
structure Rep (m : EnumMap) (ds : List (String × List (String × Int))) : Prop where
  vals : ∀ s v, m.values.lookup s = some v ↔ ∃ e n, Constant ds e n v ∧ s = e ++ "." ++ n
  ents : ∀ e es, (e, es) ∈ ds → ∃ em, m.enums.lookup e = some em ∧ ∀ v s, em.lookup v = some s ↔ ∃ n, (n, v) ∈ es ∧ s = e ++ "." ++ n
  only : ∀ e, (m.enums.lookup e).isSome → e ∈ ds.map Prod.fst

def NoDots (ds : List (String × List (String × Int))) : Prop := ∀ d ∈ ds, ∀ p ∈ d.2, NoDot p.1

theorem nodup_same {ds : List (String × List (String × Int))} (h : (ds.map Prod.fst).Nodup) {e : String} {a b : List (String × Int)}
    (ha : (e, a) ∈ ds) (hb : (e, b) ∈ ds) : a = b := by
  have := List.inj_on_of_nodup_map h ha hb rfl
  exact (Prod.mk.inj this).2

theorem addEntry_none {m : EnumMap} {ds : List (String × List (String × Int))} {e n : String} {es : List (String × Int)} {v : Int}
    (hr : Rep m (ds ++ [(e, es)])) (h : n ∈ es.map Prod.fst ∨ v ∈ es.map Prod.snd) : m.addEntry e n v = none := by
  obtain ⟨em, h1, h2⟩ := hr.ents e es (by simp)
  simp only [EnumMap.addEntry, h1]
  by_cases hv : (em.lookup v).isSome
  · rw [if_pos hv]
  · rw [if_neg hv]
    rcases h with h | h
    · obtain ⟨⟨a, w⟩, hm, rfl⟩ := List.mem_map.1 h
      rw [if_pos]
      rw [Option.isSome_iff_exists]
      exact ⟨w, (hr.vals _ _).2 ⟨e, a, ⟨es, by simp, hm⟩, rfl⟩⟩
    · obtain ⟨⟨a, w⟩, hm, rfl⟩ := List.mem_map.1 h
      exact absurd (Option.isSome_iff_exists.2 ⟨_, (h2 _ _).2 ⟨a, hm, rfl⟩⟩) hv

theorem constant_snoc {ds : List (String × List (String × Int))} {e n e' n' : String} {es : List (String × Int)} {v v' : Int} :
    Constant (ds ++ [(e, es ++ [(n, v)])]) e' n' v' ↔ Constant (ds ++ [(e, es)]) e' n' v' ∨ (e' = e ∧ n' = n ∧ v' = v) := by
  constructor
  · rintro ⟨es', h1, h2⟩
    rcases List.mem_append.1 h1 with h1 | h1
    · exact .inl ⟨es', List.mem_append.2 (.inl h1), h2⟩
    · rw [List.mem_singleton, Prod.mk.injEq] at h1
      obtain ⟨rfl, rfl⟩ := h1
      rcases List.mem_append.1 h2 with h2 | h2
      · exact .inl ⟨es, by simp, h2⟩
      · rw [List.mem_singleton, Prod.mk.injEq] at h2
        exact .inr ⟨rfl, h2⟩
  · rintro (⟨es', h1, h2⟩ | ⟨rfl, rfl, rfl⟩)
    · rcases List.mem_append.1 h1 with h1 | h1
      · exact ⟨es', List.mem_append.2 (.inl h1), h2⟩
      · rw [List.mem_singleton, Prod.mk.injEq] at h1
        obtain ⟨rfl, rfl⟩ := h1
        exact ⟨es' ++ [(n, v)], by simp, List.mem_append.2 (.inl h2)⟩
    · exact ⟨es ++ [(n', v')], by simp, by simp⟩

theorem addEntry_some {m : EnumMap} {ds : List (String × List (String × Int))} {e n : String} {es : List (String × Int)} {v : Int}
    (hr : Rep m (ds ++ [(e, es)])) (hnd : ((ds ++ [(e, es)]).map Prod.fst).Nodup) (hd : NoDots (ds ++ [(e, es)])) (hn : NoDot n)
    (h1 : n ∉ es.map Prod.fst) (h2 : v ∉ es.map Prod.snd) :
    ∃ m', m.addEntry e n v = some m' ∧ Rep m' (ds ++ [(e, es ++ [(n, v)])]) := by
  obtain ⟨em, g1, g2⟩ := hr.ents e es (by simp)
  have hv : em.lookup v = none := by
    cases hl : em.lookup v with
    | none => rfl
    | some s =>
      obtain ⟨a, hm, -⟩ := (g2 _ _).1 hl
      exact absurd (List.mem_map.2 ⟨_, hm, rfl⟩) h2
  have hf : m.values.lookup (e ++ "." ++ n) = none := by
    cases hl : m.values.lookup (e ++ "." ++ n) with
    | none => rfl
    | some w =>
      obtain ⟨e', n', ⟨es', hm, hp⟩, hs⟩ := (hr.vals _ _).1 hl
      obtain ⟨rfl, rfl⟩ := full_inj hs hn (hd _ hm _ hp)
      have := nodup_same hnd hm (by simp : (e, es) ∈ ds ++ [(e, es)])
      subst this
      exact absurd (List.mem_map.2 ⟨_, hp, rfl⟩) h1
  refine ⟨_, by simp only [EnumMap.addEntry, g1, hv, hf]; rfl, ?_, ?_, ?_⟩
  · intro s w
    simp only [lookup_put]
    constructor
    · intro h
      split at h
      · rename_i hs
        exact ⟨e, n, constant_snoc.2 (.inr ⟨rfl, rfl, (Option.some.inj h).symm⟩), hs⟩
      · obtain ⟨e', n', hc, hs⟩ := (hr.vals _ _).1 h
        exact ⟨e', n', constant_snoc.2 (.inl hc), hs⟩
    · rintro ⟨e', n', hc, rfl⟩
      rcases constant_snoc.1 hc with hc | ⟨rfl, rfl, rfl⟩
      · have hl := (hr.vals _ _).2 ⟨e', n', hc, rfl⟩
        rw [if_neg]
        · exact hl
        · intro he; rw [he, hf] at hl; simp at hl
      · rw [if_pos rfl]
  · intro e' es' hm
    simp only [lookup_put]
    have hin : e ∉ ds.map Prod.fst := by
      rw [List.map_append] at hnd
      intro hc
      exact (List.disjoint_of_nodup_append hnd) hc (by simp)
    rcases List.mem_append.1 hm with hm | hm
    · have hne : e' ≠ e := by intro h; exact hin (List.mem_map.2 ⟨(e', es'), hm, h⟩)
      rw [if_neg hne]
      exact hr.ents e' es' (List.mem_append.2 (.inl hm))
    · rw [List.mem_singleton, Prod.mk.injEq] at hm
      obtain ⟨rfl, rfl⟩ := hm
      rw [if_pos rfl]
      refine ⟨_, rfl, fun w s => ?_⟩
      rw [lookup_put]
      split
      · rename_i hw
        subst hw
        constructor
        · intro h; exact ⟨n, by simp, (Option.some.inj h).symm⟩
        · rintro ⟨a, ha, rfl⟩
          rcases List.mem_append.1 ha with ha | ha
          · exact absurd (List.mem_map.2 ⟨_, ha, rfl⟩) h2
          · simp at ha; rw [ha]
      · rename_i hw
        rw [g2]
        constructor
        · rintro ⟨a, ha, hs⟩; exact ⟨a, List.mem_append.2 (.inl ha), hs⟩
        · rintro ⟨a, ha, hs⟩
          rcases List.mem_append.1 ha with ha | ha
          · exact ⟨a, ha, hs⟩
          · simp at ha; exact absurd ha.2 hw
  · intro e' he
    simp only [lookup_put] at he
    split at he
    · rename_i hs; simp [hs]
    · have := hr.only e' he
      simpa using this

theorem addEntries_spec {ds : List (String × List (String × Int))} {e : String} (rest : List (String × Int)) :
    ∀ (m : EnumMap) (es : List (String × Int)), Rep m (ds ++ [(e, es)]) → ((ds ++ [(e, es)]).map Prod.fst).Nodup →
    NoDots (ds ++ [(e, es)]) → Unique es → (∀ p ∈ rest, NoDot p.1 ∧ isInt p.2 = true) →
    (Unique (es ++ rest) → ∃ m', addEntries m e rest = .ok m' ∧ Rep m' (ds ++ [(e, es ++ rest)])) ∧
    (¬ Unique (es ++ rest) → addEntries m e rest = .refused) := by
  induction rest with
  | nil =>
    intro m es hr _ _ hu _
    exact ⟨fun _ => ⟨m, rfl, by simpa using hr⟩, fun h => absurd (by simpa using hu) h⟩
  | cons p rest ih =>
    intro m es hr hnd hd hu hi
    obtain ⟨n, v⟩ := p
    obtain ⟨hn, hint⟩ := hi (n, v) (by simp)
    simp only [addEntries, hint, if_pos]
    by_cases hp : n ∈ es.map Prod.fst ∨ v ∈ es.map Prod.snd
    · refine ⟨fun h => absurd h (not_unique hp), fun _ => ?_⟩
      rw [addEntry_none hr hp]
    · obtain ⟨hpn, hpv⟩ := not_or.1 hp
      obtain ⟨m', h1, h2⟩ := addEntry_some hr hnd hd hn hpn hpv
      rw [h1]
      have hd' : NoDots (ds ++ [(e, es ++ [(n, v)])]) := by
        intro d hdm p hpm
        rcases List.mem_append.1 hdm with hdm | hdm
        · exact hd d (List.mem_append.2 (.inl hdm)) p hpm
        · rw [List.mem_singleton] at hdm
          subst hdm
          rcases List.mem_append.1 hpm with hpm | hpm
          · exact hd (e, es) (by simp) p hpm
          · rw [List.mem_singleton] at hpm; subst hpm; exact hn
      have := ih m' (es ++ [(n, v)]) h2 (by simpa using hnd) hd' (unique_snoc hu hpn hpv) (fun p hp => hi p (by simp [hp]))
      simpa only [List.append_assoc, List.singleton_append] using this

theorem addEnum_some {m : EnumMap} {ds : List (String × List (String × Int))} {e : String} (hr : Rep m ds) (he : e ∉ ds.map Prod.fst) :
    ∃ m', m.addEnum e = some m' ∧ Rep m' (ds ++ [(e, [])]) := by
  have hn : (m.enums.lookup e).isSome = false := by
    rw [← Bool.not_eq_true]; exact fun h => he (hr.only e h)
  refine ⟨_, by rw [EnumMap.addEnum, if_neg (by simp [hn])], ?_, ?_, ?_⟩
  · intro s v
    rw [hr.vals]
    constructor
    · rintro ⟨e', n, ⟨es, h1, h2⟩, hs⟩; exact ⟨e', n, ⟨es, List.mem_append.2 (.inl h1), h2⟩, hs⟩
    · rintro ⟨e', n, ⟨es, h1, h2⟩, hs⟩
      rcases List.mem_append.1 h1 with h1 | h1
      · exact ⟨e', n, ⟨es, h1, h2⟩, hs⟩
      · simp at h1; rw [h1.2] at h2; simp at h2
  · intro e' es hm
    simp only [lookup_put]
    rcases List.mem_append.1 hm with hm | hm
    · have hne : e' ≠ e := by intro h; exact he (List.mem_map.2 ⟨(e', es), hm, h⟩)
      rw [if_neg hne]; exact hr.ents e' es hm
    · simp at hm; obtain ⟨rfl, rfl⟩ := hm
      exact ⟨[], by simp, by simp⟩
  · intro e' h
    simp only [lookup_put] at h
    split at h
    · rename_i hs; simp [hs]
    · have := hr.only e' h
      rw [List.map_append]; exact List.mem_append.2 (.inl this)

theorem addEnum_none {m : EnumMap} {ds : List (String × List (String × Int))} {e : String} (hr : Rep m ds) (he : e ∈ ds.map Prod.fst) :
    m.addEnum e = none := by
  obtain ⟨⟨a, es⟩, hm, rfl⟩ := List.mem_map.1 he
  obtain ⟨em, h, -⟩ := hr.ents a es hm
  simp [EnumMap.addEnum, h]

theorem addEnums_spec (rest : List (String × List (String × Int))) : ∀ (m : EnumMap) (ds : List (String × List (String × Int))),
    Rep m ds → EnumsUnique ds → NoDots ds → (∀ d ∈ rest, ∀ p ∈ d.2, NoDot p.1 ∧ isInt p.2 = true) →
    (EnumsUnique (ds ++ rest) → ∃ m', addEnums m rest = .ok m' ∧ Rep m' (ds ++ rest)) ∧
    (¬ EnumsUnique (ds ++ rest) → addEnums m rest = .refused) := by
  induction rest with
  | nil =>
    intro m ds hr hu _ _
    exact ⟨fun _ => ⟨m, rfl, by simpa using hr⟩, fun h => absurd (by simpa using hu) h⟩
  | cons d rest ih =>
    intro m ds hr hu hd hi
    obtain ⟨e, es⟩ := d
    by_cases he : e ∈ ds.map Prod.fst
    · refine ⟨fun h => ?_, fun _ => by simp only [addEnums, addEnum_none hr he]⟩
      have := h.1
      rw [List.map_append] at this
      exact absurd (by simp) ((List.disjoint_of_nodup_append this) he)
    · obtain ⟨m1, h1, hr1⟩ := addEnum_some hr he
      have hnd1 : ((ds ++ [(e, ([] : List (String × Int)))]).map Prod.fst).Nodup := by
        rw [List.map_append]
        exact List.Nodup.append hu.1 (by simp) (by simpa using he)
      have hd1 : NoDots (ds ++ [(e, [])]) := by
        intro d hdm p hp
        rcases List.mem_append.1 hdm with hdm | hdm
        · exact hd d hdm p hp
        · rw [List.mem_singleton] at hdm; subst hdm; simp at hp
      obtain ⟨hok, hno⟩ := addEntries_spec es m1 [] hr1 hnd1 hd1 ⟨by simp, by simp⟩ (hi (e, es) (by simp))
      simp only [List.nil_append] at hok hno
      by_cases hue : Unique es
      · obtain ⟨m2, h2, hr2⟩ := hok hue
        have hu2 : EnumsUnique (ds ++ [(e, es)]) := by
          refine ⟨by simpa using hnd1, ?_⟩
          intro d hdm
          rcases List.mem_append.1 hdm with hdm | hdm
          · exact hu.2 d hdm
          · rw [List.mem_singleton] at hdm; subst hdm; exact hue
        have hd2 : NoDots (ds ++ [(e, es)]) := by
          intro d hdm p hp
          rcases List.mem_append.1 hdm with hdm | hdm
          · exact hd d hdm p hp
          · rw [List.mem_singleton] at hdm; subst hdm; exact (hi (e, es) (by simp) p hp).1
        have := ih m2 (ds ++ [(e, es)]) hr2 hu2 hd2 (fun d hd => hi d (by simp [hd]))
        simp only [addEnums, h1, h2]
        simpa only [List.append_assoc, List.singleton_append] using this
      · refine ⟨fun h => absurd (h.2 (e, es) (by simp)) hue, fun _ => ?_⟩
        simp only [addEnums, h1, hno hue]

theorem rep_empty : Rep {} [] := ⟨by intro s v; simp [Constant], by simp, by simp⟩

end Bm.Const
