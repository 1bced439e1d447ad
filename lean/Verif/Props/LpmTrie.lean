import Verif.Model.LpmTrie
import Verif.Spec.Lpm
import Verif.Lemmas.LpmTrie

/-!
# C02, C03: longest-prefix match
-/

namespace Bm
open Spec
variable {α : Type}

/-- One update of the modelled trie (`none` = undefined behaviour), with the returned boolean
(`true` for the void functions). -/
def LpmTrie.exec (t : LpmTrie α) : LOp α → Option (Bool × LpmTrie α)
  | .insert p len v => (t.insertPrefix p len v).map fun t' => (true, t')
  | .delete p len => t.deletePrefix p len
  | .clear => some (true, t.clear)

/-- A history of updates. -/
def LpmTrie.run (t : LpmTrie α) : List (LOp α) → Option (LpmTrie α)
  | [] => some t
  | op :: ops => do
    let (_, t') ← t.exec op
    LpmTrie.run t' ops

/-- Refinement relation between the trie and the installed prefixes. -/
structure LpmTrie.Rep (w : Nat) (t : LpmTrie α) (M : PrefixMap α) : Prop where
  width : t.keyWidth = w
  wf : t.root.WF w
  sem : ∀ bits, t.root.sem bits = M bits

theorem LpmTrie.Rep.init (w : Nat) : Rep w (LpmTrie.init w : LpmTrie α) (fun _ => none) :=
  ⟨rfl, TNode.WF.empty w, TNode.sem_empty⟩

theorem LpmTrie.Rep.exec {w : Nat} {t : LpmTrie α} {M} (h : t.Rep w M) (op : LOp α)
    (hv : op.Valid w) :
    ∃ b t', t.exec op = some (b, t') ∧ t'.Rep w (op.apply M) ∧
      (∀ p len, op = .delete p len → b = (M (prefixBits p len)).isSome) := by
  cases op with
  | insert p len v =>
    obtain ⟨hl, hlen⟩ := hv
    have hw := h.wf
    rw [← hl] at hw
    obtain ⟨n', e, w', _, s'⟩ := TNode.insert_spec p len v t.root (by omega) hw
    refine ⟨true, { t with root := n' }, by simp [LpmTrie.exec, LpmTrie.insertPrefix, e],
      ⟨h.width, by rw [← hl]; exact w', ?_⟩, by intro _ _ e; cases e⟩
    intro bits
    simp only [s', h.sem, LOp.apply]
  | delete p len =>
    obtain ⟨hl, hlen⟩ := hv
    have hw := h.wf
    rw [← hl] at hw
    obtain ⟨r, e, ok⟩ := TNode.delete_spec p len t.root (by omega) hw
    cases r with
    | none =>
      have hn : M (prefixBits p len) = none := by rw [← h.sem]; exact ok
      refine ⟨false, t, by simp [LpmTrie.exec, LpmTrie.deletePrefix, e],
        ⟨h.width, h.wf, ?_⟩, ?_⟩
      · intro bits
        simp only [h.sem, LOp.apply]
        split
        · rename_i hb; rw [hb, hn]
        · rfl
      · intro p' len' e'
        cases e'
        simp [hn]
    | some n' =>
      obtain ⟨hs, w', s'⟩ := ok
      refine ⟨true, { t with root := n' }, by simp [LpmTrie.exec, LpmTrie.deletePrefix, e],
        ⟨h.width, by rw [← hl]; exact w', ?_⟩, ?_⟩
      · intro bits
        simp only [s', h.sem, LOp.apply]
      · intro p' len' e'
        cases e'
        rw [← h.sem]; exact hs.symm
  | clear =>
    exact ⟨true, t.clear, rfl, ⟨h.width, TNode.WF.empty w, TNode.sem_empty⟩,
      by intro _ _ e; cases e⟩

theorem LpmTrie.Rep.run {w : Nat} {t : LpmTrie α} {M} (h : t.Rep w M) (ops : List (LOp α))
    (hv : ∀ op ∈ ops, op.Valid w) :
    ∃ t', t.run ops = some t' ∧ t'.Rep w (ops.foldl LOp.apply M) := by
  induction ops generalizing t M with
  | nil => exact ⟨t, rfl, h⟩
  | cons op ops ih =>
    obtain ⟨b, t1, e, r, _⟩ := h.exec op (hv op (by simp))
    obtain ⟨t2, e2, r2⟩ := ih r (fun o ho => hv o (by simp [ho]))
    exact ⟨t2, by simp [LpmTrie.run, e, e2], r2⟩

/-- **C02.** After any history of insertions, deletions and clears on a trie for `w`-byte keys,
a lookup returns the value of the longest installed prefix of the key, and a miss exactly when
no installed prefix covers the key. No operation has undefined behaviour. -/
theorem C02_lpm_longest_match (w : Nat) (ops : List (LOp α)) (hv : ∀ op ∈ ops, op.Valid w)
    (key : List UInt8) (hk : key.length = w) :
    ∃ t, (LpmTrie.init w).run ops = some t ∧
      ∃ r, t.lookup key = some r ∧ IsLpm (LOp.after ops) (bytesBits key) r := by
  obtain ⟨t, e, h⟩ := (LpmTrie.Rep.init w).run ops hv
  refine ⟨t, e, ?_⟩
  have hw := h.wf
  rw [← hk] at hw
  obtain ⟨r, e2, hr⟩ := TNode.lookup_spec key t.root none hw (Or.inl rfl)
  refine ⟨r, ?_, ?_⟩
  · unfold LpmTrie.lookup
    rw [if_neg (by rw [h.width]; omega), h.width, ← hk, List.take_length, e2]
    simp
  · have : (fun b => t.root.sem b) = LOp.after ops := by
      funext b; exact h.sem b
    rwa [this] at hr

/-- **C03.** After any history, `has_prefix` and `retrieve_value` answer exactly according to the
prefixes inserted and not yet deleted (so an update affects the answer for its own prefix only),
and a further deletion reports success exactly when the prefix is present. -/
theorem C03_lpm_exact_prefixes (w : Nat) (ops : List (LOp α)) (hv : ∀ op ∈ ops, op.Valid w)
    (p : List UInt8) (len : Nat) (hp : p.length = w) (hlen : len ≤ 8 * w) :
    ∃ t, (LpmTrie.init w).run ops = some t ∧
      t.retrieveValue p len = some (LOp.after ops (prefixBits p len)) ∧
      t.hasPrefix p len = some (LOp.after ops (prefixBits p len)).isSome ∧
      ∃ t', t.deletePrefix p len = some ((LOp.after ops (prefixBits p len)).isSome, t') ∧
        ∀ q qlen, q.length = w → qlen ≤ 8 * w →
          t'.retrieveValue q qlen =
            if prefixBits q qlen = prefixBits p len then some none else t.retrieveValue q qlen := by
  obtain ⟨t, e, h⟩ := (LpmTrie.Rep.init w).run ops hv
  have hret : ∀ (t : LpmTrie α) (M) (q : List UInt8) (qlen : Nat), t.Rep w M → q.length = w →
      qlen ≤ 8 * w → t.retrieveValue q qlen = some (M (prefixBits q qlen)) := by
    intro t M q qlen h hq hqlen
    unfold LpmTrie.retrieveValue
    rw [TNode.retrieve_sem _ _ _ (by omega), h.sem]
  have h1 := hret t _ p len h hp hlen
  refine ⟨t, e, h1, by simp [LpmTrie.hasPrefix, h1, LOp.after], ?_⟩
  obtain ⟨b, t', e', r', hb⟩ := h.exec (.delete p len) ⟨hp, hlen⟩
  have hb' := hb p len rfl
  subst hb'
  refine ⟨t', e', ?_⟩
  intro q qlen hq hqlen
  rw [hret t' _ q qlen r' hq hqlen, hret t _ q qlen h hq hqlen]
  simp only [LOp.apply]
  split <;> rfl

/-- Non-trivial history on 2-byte keys: 10.0/7-style nested prefixes, one deleted again. -/
def C02_ops : List (LOp Nat) :=
  [.insert [0x0a, 0x00] 8 1, .insert [0x0a, 0x80] 9 2, .insert [0x0a, 0xff] 16 3,
   .insert [0x00, 0x00] 0 4, .delete [0x0a, 0xff] 16]

example : ∀ op ∈ C02_ops, op.Valid 2 := by
  simp [C02_ops, LOp.Valid]

example : (do
    let t ← (LpmTrie.init 2).run C02_ops
    return (t.lookup [0x0a, 0xff], t.lookup [0x0a, 0x01], t.lookup [0x0b, 0x01])) =
    some (some (some 2), some (some 1), some (some 4)) := by decide +kernel

end Bm
