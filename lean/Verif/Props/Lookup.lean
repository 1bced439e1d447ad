import Verif.Lemmas.LookupLaws

/-!
# C04, C05: prioritised lookup and the lookup cache
-/

namespace Bm
open Spec
variable {K : Type}

/-- Execute one operation on a lookup structure. -/
def LookupStr.exec (L : LookupStr K) (s : L.S) : SOp K → Option (SOut × L.S)
  | .add k i => (L.add s k i).map fun s' => (.done, s')
  | .delete k => (L.delete s k).map fun s' => (.done, s')
  | .lookup q => (L.lookup s q).map fun (r, s') => (.found r, s')
  | .clear => some (.done, L.clear s)

/-- Execute a history, collecting the results. -/
def LookupStr.run (L : LookupStr K) : L.S → List (SOp K) → Option (List SOut × L.S)
  | s, [] => some ([], s)
  | s, op :: ops => do
    let (o, s1) ← L.exec s op
    let (os, s2) ← L.run s1 ops
    return (o :: os, s2)

theorem Laws.exec {L : LookupStr K} {sp : MatchSpec K} (W : Laws L sp) {s n E}
    (h : W.Rep s n E) (op : SOp K) (hv : op.Valid sp n E) :
    ∃ o s', L.exec s op = some (o, s') ∧ W.Rep s' n (op.apply sp E) ∧
      match (motive := SOp K → Prop) op with
      | .lookup q => ∃ r, o = .found r ∧ IsBest sp.prio (sp.m q) E r
      | _ => o = .done := by
  cases op with
  | add k i =>
    obtain ⟨h1, h2, h3, h4, h5⟩ := hv
    obtain ⟨s', e, r⟩ := W.add h k i h1 h2 h3 h4 h5
    exact ⟨.done, s', by simp [LookupStr.exec, e], r, rfl⟩
  | delete k =>
    obtain ⟨i, hi⟩ := hv
    obtain ⟨s', e, r⟩ := W.delete h i k hi
    refine ⟨.done, s', by simp [LookupStr.exec, e], ?_, rfl⟩
    have : SOp.apply sp E (.delete k) = fun j => if j = i then none else E j := by
      funext j
      simp only [SOp.apply]
      by_cases hj : j = i
      · subst hj
        rw [if_pos ⟨k, hi, W.refl k⟩, if_pos rfl]
      · rw [if_neg hj, if_neg]
        rintro ⟨k', hk', hs⟩
        exact hj (W.uniq h j i k' k hk' hi hs)
    rw [this]; exact r
  | lookup q =>
    obtain ⟨r, s', e, hb, hr⟩ := W.lookup h q hv
    exact ⟨.found r, s', by simp [LookupStr.exec, e], hr, r, rfl, hb⟩
  | clear => exact ⟨.done, L.clear s, rfl, W.clear h, rfl⟩

theorem Laws.run {L : LookupStr K} {sp : MatchSpec K} (W : Laws L sp) (ops : List (SOp K)) :
    ∀ {s n E}, W.Rep s n E → SOp.ValidFrom sp n E ops →
    ∃ outs s', L.run s ops = some (outs, s') ∧ SOp.Answers sp E ops outs ∧
      ∃ E', W.Rep s' n E' := by
  induction ops with
  | nil => intro s n E h _; exact ⟨[], s, rfl, rfl, E, h⟩
  | cons op ops ih =>
    intro s n E h hv
    obtain ⟨o, s1, e1, r1, a1⟩ := W.exec h op hv.1
    obtain ⟨os, s2, e2, a2, r2⟩ := ih r1 hv.2
    exact ⟨o :: os, s2, by simp [LookupStr.run, e1, e2], ⟨o, os, rfl, a2, a1⟩, r2⟩

/-- The best entry is unique. -/
theorem IsBest.unique {prio : K → Int} {m : K → Prop} {E : Nat → Option K} {r r' : Option Nat}
    (h : IsBest prio m E r) (h' : IsBest prio m E r') : r = r' := by
  cases r with
  | none =>
    cases r' with
    | none => rfl
    | some i => obtain ⟨k, a, b, _⟩ := h'; exact absurd b (h i k a)
  | some i =>
    obtain ⟨k, a, b, c⟩ := h
    cases r' with
    | none => exact absurd b (h' i k a)
    | some j =>
      obtain ⟨k', a', b', c'⟩ := h'
      have h1 := c j k' a' b'
      have h2 := c' i k a b
      have : i = j := by omega
      rw [this]

theorem SOp.Answers.unique {sp : MatchSpec K} (ops : List (SOp K)) :
    ∀ {E outs outs'}, SOp.Answers sp E ops outs → SOp.Answers sp E ops outs' → outs = outs' := by
  induction ops with
  | nil => intro E outs outs' h h'; rw [h, h']
  | cons op ops ih =>
    intro E outs outs' h h'
    obtain ⟨o, r, rfl, a, b⟩ := h
    obtain ⟨o', r', rfl, a', b'⟩ := h'
    have : o = o' := by
      cases op with
      | lookup q =>
        obtain ⟨x, rfl, hx⟩ := b
        obtain ⟨y, rfl, hy⟩ := b'
        rw [IsBest.unique hx hy]
      | _ => simp only at b b'; rw [b, b']
    rw [this, ih a a']

/-- **C04** (ternary tables).  For every valid history of entry additions, deletions, clears and
lookups on a ternary lookup structure for `n`-byte keys with `size` slots — with the lookup cache
enabled or not — no operation crashes and every lookup returns the matching installed entry with
the smallest priority number, ties going to the lowest slot; a miss is returned exactly when no
installed entry matches. -/
theorem C04_ternary_best_priority (n size : Nat) (cache : Bool) (ops : List (SOp TernKey))
    (hv : SOp.ValidFrom (ternSpec n TernKey.data TernKey.mask TernKey.priority) size
      (fun _ => none) ops) :
    ∃ outs s, (ternStr n cache).run ((ternStr n cache).init size) ops = some (outs, s) ∧
      SOp.Answers (ternSpec n TernKey.data TernKey.mask TernKey.priority) (fun _ => none) ops
        outs := by
  obtain ⟨outs, s, e, a, _⟩ := (ternLaws n cache).run ops ((ternLaws n cache).init size) hv
  exact ⟨outs, s, e, a⟩

/-- **C04** (range tables). -/
theorem C04_range_best_priority (n size : Nat) (cache : Bool) (ops : List (SOp RangeKey))
    (hv : SOp.ValidFrom (rangeSpec n RangeKey.data RangeKey.mask RangeKey.rangeWidths
      RangeKey.priority) size (fun _ => none) ops) :
    ∃ outs s, (rangeStr n cache).run ((rangeStr n cache).init size) ops = some (outs, s) ∧
      SOp.Answers (rangeSpec n RangeKey.data RangeKey.mask RangeKey.rangeWidths
        RangeKey.priority) (fun _ => none) ops outs := by
  obtain ⟨outs, s, e, a, _⟩ := (rangeLaws n cache).run ops ((rangeLaws n cache).init size) hv
  exact ⟨outs, s, e, a⟩

/-- **C05.**  The lookup cache is invisible: for every valid history, a ternary structure with
the cache enabled produces the same results as one with the cache disabled, and never holds more
than its capacity of 64 cached results. -/
theorem C05_cache_invisible (n size : Nat) (ops : List (SOp TernKey))
    (hv : SOp.ValidFrom (ternSpec n TernKey.data TernKey.mask TernKey.priority) size
      (fun _ => none) ops) :
    ∃ outs s s', (ternStr n true).run ((ternStr n true).init size) ops = some (outs, s) ∧
      (ternStr n false).run ((ternStr n false).init size) ops = some (outs, s') := by
  obtain ⟨o1, s1, e1, a1, _⟩ := (ternLaws n true).run ops ((ternLaws n true).init size) hv
  obtain ⟨o2, s2, e2, a2, _⟩ := (ternLaws n false).run ops ((ternLaws n false).init size) hv
  have := SOp.Answers.unique ops a1 a2
  subst this
  exact ⟨o1, s1, s2, e1, e2⟩

/-- **C05** (range tables). -/
theorem C05_cache_invisible_range (n size : Nat) (ops : List (SOp RangeKey))
    (hv : SOp.ValidFrom (rangeSpec n RangeKey.data RangeKey.mask RangeKey.rangeWidths
      RangeKey.priority) size (fun _ => none) ops) :
    ∃ outs s s', (rangeStr n true).run ((rangeStr n true).init size) ops = some (outs, s) ∧
      (rangeStr n false).run ((rangeStr n false).init size) ops = some (outs, s') := by
  obtain ⟨o1, s1, e1, a1, _⟩ := (rangeLaws n true).run ops ((rangeLaws n true).init size) hv
  obtain ⟨o2, s2, e2, a2, _⟩ := (rangeLaws n false).run ops ((rangeLaws n false).init size) hv
  have := SOp.Answers.unique ops a1 a2
  subst this
  exact ⟨o1, s1, s2, e1, e2⟩

/-- **C05** (bounded size).  After every valid history the cache holds at most 64 results, all of
them for distinct keys. -/
theorem C05_cache_bounded (n size : Nat) (ops : List (SOp TernKey))
    (hv : SOp.ValidFrom (ternSpec n TernKey.data TernKey.mask TernKey.priority) size
      (fun _ => none) ops) :
    ∃ outs s, (ternStr n true).run ((ternStr n true).init size) ops = some (outs, s) ∧
      (s : EList TernKey).cache.entries.length ≤ 64 ∧
      ((s : EList TernKey).cache.entries.map Prod.fst).Nodup := by
  obtain ⟨o1, s1, e1, a1, E', r⟩ := (ternLaws n true).run ops ((ternLaws n true).init size) hv
  have r : EList.Rep _ s1 size E' := r
  refine ⟨o1, s1, e1, ?_, r.keys⟩
  have := r.cap
  rwa [r.capEq] at this

/-! ## A non-trivial history -/

/-- Two overlapping entries with different priorities, a tie, a deletion. -/
def C04_ops : List (SOp TernKey) :=
  [.add ⟨[0x0a, 0x00], [0xff, 0x00], 10⟩ 0, .add ⟨[0x0a, 0x01], [0xff, 0xff], 5⟩ 1,
   .add ⟨[0x00, 0x01], [0x00, 0xff], 5⟩ 2, .lookup [0x0a, 0x01], .lookup [0x0b, 0x01],
   .delete ⟨[0x0a, 0x01], [0xff, 0xff], 5⟩, .lookup [0x0a, 0x01], .lookup [0x0a, 0x07],
   .lookup [0x0b, 0x07]]

example : SOp.ValidFrom (ternSpec 2 TernKey.data TernKey.mask TernKey.priority) 4
    (fun _ => none) C04_ops := by
  simp only [C04_ops, SOp.ValidFrom, SOp.Valid, SOp.apply, ternSpec]
  refine ⟨⟨by decide, by decide, by simp, by simp, by simp⟩,
    ⟨by decide, by decide, by simp, ?_, ?_⟩, ⟨by decide, by decide, by simp, ?_, ?_⟩, by decide, by decide, ⟨1, by simp⟩, by decide, by decide,
    by decide, trivial⟩
  · intro j hj; have : j = 0 := by omega
    subst this; simp
  · intro i k' h
    by_cases hi : i = 0
    · simp [hi] at h; subst h; decide
    · simp [hi] at h
  · intro j hj
    have : j = 0 ∨ j = 1 := by omega
    rcases this with rfl | rfl <;> simp
  · intro i k' h
    by_cases hi1 : i = 1
    · simp [hi1] at h; subst h; decide
    · by_cases hi : i = 0
      · simp [hi] at h; subst h; decide
      · simp [hi, hi1] at h

example : ((ternStr 2 true).run ((ternStr 2 true).init 4) C04_ops).map Prod.fst =
    some [.done, .done, .done, .found (some 1), .found (some 2), .done, .found (some 2),
      .found (some 0), .found none] := by decide

/-- A range entry on a 2-byte segment followed by a ternary byte. -/
example : ((rangeStr 3 true).run ((rangeStr 3 true).init 4)
    [.add ⟨[0x01, 0x00, 0x05], [0x02, 0x80, 0x0f], 1, [2]⟩ 0, .lookup [0x01, 0xff, 0xf5],
     .lookup [0x02, 0x81, 0xf5], .lookup [0x01, 0xff, 0xf4]]).map Prod.fst =
    some [.done, .found (some 0), .found none, .found none] := by decide

/-- The cache is really used: after 16 entries a repeated lookup is answered from the cache. -/
example : (((ternStr 1 true).run ((ternStr 1 true).init 32)
    ((List.range 16).map (fun i => SOp.add ⟨[UInt8.ofNat i], [0xff], 1⟩ i) ++
      [.lookup [3], .lookup [4], .lookup [3]])).map
        (fun r => (r.2 : EList TernKey).cache.entries)) = some [([3], 3), ([4], 4)] := by
  decide +kernel

end Bm
