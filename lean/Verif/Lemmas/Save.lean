import Verif.Model.Save
import Verif.Lemmas.MatchTable

/-! Saving and restoring: what is read is what was written. -/

namespace Bm.Save
open Spec MT
variable {D : Type}

/-! ## Hexadecimal strings -/

theorem digit_hexDigit : ∀ n : Fin 16, digit (hexDigit n) = some n.1 := by decide

theorem digit_hex {n : Nat} (h : n < 16) : digit (hexDigit n) = some n := digit_hexDigit ⟨n, h⟩

theorem hexDigit_plain : ∀ n : Fin 16, hexDigit n ≠ 'x' ∧ hexDigit n ≠ '-' ∧ hexDigit n ≠ '_' := by decide

theorem hexDigit_ne {n : Nat} (h : n < 16) : hexDigit n ≠ 'x' ∧ hexDigit n ≠ '-' ∧ hexDigit n ≠ '_' :=
  hexDigit_plain ⟨n, h⟩

theorem hexPairs_toHex (b : Bytes) : hexPairs (toHex b) = some b := by
  induction b with
  | nil => rfl
  | cons x b ih =>
    have h1 : x.toNat / 16 < 16 := by have := x.toNat_lt; omega
    have h2 : x.toNat % 16 < 16 := Nat.mod_lt _ (by omega)
    have hx : UInt8.ofNat (x.toNat / 16 * 16 + x.toNat % 16) = x := by
      rw [show x.toNat / 16 * 16 + x.toNat % 16 = x.toNat by omega]; exact UInt8.ofNat_toNat
    simp only [toHex, List.flatMap_cons, List.cons_append, List.nil_append] at ih ⊢
    simp only [hexPairs, digit_hex h1, digit_hex h2, ih, Option.bind_eq_bind, Option.bind_some, Option.pure_def, hx]

theorem skip0x_of {cs : List Char} (h : cs[1]? ≠ some 'x') : skip0x cs = cs := by
  unfold skip0x
  split
  · simp at h
  · rfl

theorem toHex_ne {b : Bytes} (h : b ≠ []) : toHex b ≠ [] := by
  cases b with
  | nil => exact absurd rfl h
  | cons x b => simp [toHex]

theorem fromHex_toHex {b : Bytes} (h : b ≠ []) : fromHex (toHex b) = some b := by
  cases b with
  | nil => exact absurd rfl h
  | cons x b =>
    have h2 : x.toNat % 16 < 16 := Nat.mod_lt _ (by omega)
    have hs : skip0x (toHex (x :: b)) = toHex (x :: b) := by
      apply skip0x_of
      simp only [toHex, List.flatMap_cons, List.cons_append, List.nil_append, List.getElem?_cons_succ,
        List.getElem?_cons_zero, ne_eq, Option.some.injEq]
      exact (hexDigit_ne h2).1
    have hl : (toHex (x :: b)).length % 2 = 0 := by
      simp [toHex, List.length_flatMap]; omega
    have hp := hexPairs_toHex (x :: b)
    rw [fromHex, hs]
    have hc : ∃ c cs, toHex (x :: b) = c :: cs := ⟨_, _, by simp [toHex]; exact ⟨rfl, rfl⟩⟩
    obtain ⟨c, cs, hc⟩ := hc
    rw [hc] at hl hp ⊢
    rw [hexDigits, if_neg (by simpa using hl), hp]

/-- Value of a list of digits. -/
def val16 (a : Nat) (ds : List Nat) : Nat := ds.foldl (fun a d => a * 16 + d) a

theorem natHex_eq (n : Nat) : ∃ ds : List Nat, ds ≠ [] ∧ (∀ d ∈ ds, d < 16) ∧ natHex n = ds.map hexDigit ∧
    val16 0 ds = n := by
  induction n using Nat.strongRecOn with
  | ind n ih =>
    unfold natHex
    by_cases h : n < 16
    · exact ⟨[n], by simp, by simpa using h, by simp [h], by simp [val16]⟩
    · obtain ⟨ds, h1, h2, h3, h4⟩ := ih (n / 16) (by omega)
      refine ⟨ds ++ [n % 16], by simp, ?_, by simp [h, h3], ?_⟩
      · intro d hd
        rcases List.mem_append.1 hd with hd | hd
        · exact h2 d hd
        · simp at hd; omega
      · simp only [val16, List.foldl_append, List.foldl_cons, List.foldl_nil] at h4 ⊢
        rw [h4]; omega

theorem hexPairs_digits : ∀ (ds : List Nat), ds.length % 2 = 0 → (∀ d ∈ ds, d < 16) →
    ∃ bs, hexPairs (ds.map hexDigit) = some bs ∧ ∀ a, bs.foldl (fun a x => a * 256 + x.toNat) a = val16 a ds
  | [], _, _ => ⟨[], rfl, by simp [val16]⟩
  | [_], h, _ => by simp at h
  | x :: y :: ds, h, hd => by
    obtain ⟨bs, e, hv⟩ := hexPairs_digits ds (by simp at h; omega) (fun d hm => hd d (by simp [hm]))
    have hx : x < 16 := hd x (by simp)
    have hy : y < 16 := hd y (by simp)
    refine ⟨UInt8.ofNat (x * 16 + y) :: bs, ?_, ?_⟩
    · simp [hexPairs, digit_hex hx, digit_hex hy, e]
    · intro a
      have : (UInt8.ofNat (x * 16 + y)).toNat = x * 16 + y := by
        simp; omega
      simp only [List.foldl_cons, this, hv, val16]
      congr 1; omega

theorem hexDigits_digits (ds : List Nat) (hn : ds ≠ []) (hd : ∀ d ∈ ds, d < 16) :
    ∃ bs, hexDigits (ds.map hexDigit) = some bs ∧ importBytes bs = val16 0 ds := by
  cases ds with
  | nil => exact absurd rfl hn
  | cons x ds =>
    by_cases h : (x :: ds).length % 2 = 0
    · obtain ⟨bs, e, hv⟩ := hexPairs_digits (x :: ds) h hd
      refine ⟨bs, ?_, hv 0⟩
      rw [List.map_cons, hexDigits, if_neg (by simpa using h), ← List.map_cons, e]
    · obtain ⟨bs, e, hv⟩ := hexPairs_digits ds (by simp at h; omega) (fun d hm => hd d (by simp [hm]))
      have hx : x < 16 := hd x (by simp)
      refine ⟨UInt8.ofNat x :: bs, ?_, ?_⟩
      · rw [List.map_cons, hexDigits, if_pos (by simpa using h)]
        simp [digit_hex hx, e]
      · have : (UInt8.ofNat x).toNat = x := by simp; omega
        simp only [importBytes, List.foldl_cons, this, hv, val16, Nat.zero_mul, Nat.zero_add]

theorem natHex_ne (n : Nat) : natHex n ≠ [] := by
  obtain ⟨ds, h1, _, h3, _⟩ := natHex_eq n
  simp [h3, h1]

/-- Numbers read back. -/
theorem dataOfHex_natHex (n : Nat) : dataOfHex (natHex n) = some (n : Int) := by
  obtain ⟨ds, h1, h2, h3, h4⟩ := natHex_eq n
  obtain ⟨bs, e, hb⟩ := hexDigits_digits ds h1 h2
  have hs : skip0x (ds.map hexDigit) = ds.map hexDigit := by
    apply skip0x_of
    rw [List.getElem?_map]
    cases hq : ds[1]? with
    | none => simp
    | some d =>
      simp only [Option.map_some, ne_eq, Option.some.injEq]
      exact (hexDigit_ne (h2 d (List.mem_of_getElem? hq))).1
  rw [h3]
  cases ds with
  | nil => exact absurd rfl h1
  | cons x ds =>
    have hx : hexDigit x ≠ '-' := (hexDigit_ne (h2 x (by simp))).2.1
    unfold dataOfHex
    split
    · rename_i heq
      simp only [List.map_cons, List.cons.injEq] at heq
      exact absurd heq.1 hx
    · rw [hs, e]; simp [hb, h4]

/-! ## Action entries -/

theorem putWord_of {s : List Char} (h : s ≠ []) : (putWord s : List (Tok D)) = [.word s] := if_neg h

/-- The data of an entry can be saved. -/
theorem loadData_save (ds : List Int) (h : ∀ d ∈ ds, 0 ≤ d) : ∃ ws, ds.mapM dataHex = some ws ∧
    ∀ rest : List (Tok D), loadData ds.length (ws.flatMap putWord ++ rest) = some (ds, rest) := by
  induction ds with
  | nil => exact ⟨[], rfl, fun rest => rfl⟩
  | cons d ds ih =>
    obtain ⟨ws, e, hl⟩ := ih (fun x hx => h x (by simp [hx]))
    have hd : 0 ≤ d := h d (by simp)
    have h1 : dataHex d = some (natHex d.toNat) := by rw [dataHex, if_neg (by omega)]
    refine ⟨natHex d.toNat :: ws, ?_, ?_⟩
    · rw [List.mapM_cons, h1, e]; rfl
    · intro rest
      rw [List.flatMap_cons, putWord_of (natHex_ne _)]
      have h2 : dataOfHex (natHex d.toNat) = some d := by
        rw [dataOfHex_natHex]; congr 1; omega
      simp only [List.length_cons, loadData, List.cons_append, List.nil_append, readWord, Option.bind_eq_bind,
        Option.bind_some, h2, hl]
      rfl

/-- The node can be found by its name. -/
def Objs.NodeOk (o : Objs) (n : Nat) : Prop :=
  o.node (o.nodeName n) = some n ∧ o.nodeName n ≠ nullName ∧ o.nodeName n ≠ []

theorem loadNode_save (o : Objs) (cur n : Option Nat) (h : ∀ i, n = some i → o.NodeOk i) (rest : List (Tok D)) :
    loadNode o cur (saveNode o n ++ rest) = some (n.orElse fun _ => cur, rest) := by
  cases n with
  | none => rw [saveNode, putWord_of (by simp [nullName])]; simp [loadNode, readWord]
  | some n =>
    obtain ⟨h1, h2, h3⟩ := h n rfl
    rw [saveNode, putWord_of h3]
    simp [loadNode, readWord, h1, h2]

/-- What restoring the saved entry `e` makes of the entry `e0`. -/
def over (e0 e : ActEntry) : ActEntry :=
  { fn := e.fn
    data := if e.fn.isSome then e0.data ++ e.data else e0.data
    next := e.next.orElse fun _ => e0.next }

theorem loadAct_save (o : Objs) (e0 e : ActEntry) (hf : ∀ f, e.fn = some f → o.act f.id = some f)
    (hn : ∀ i, e.next = some i → o.NodeOk i) (hd : ∀ d ∈ e.data, 0 ≤ d) :
    ∃ ts : List (Tok D), saveAct o e = some ts ∧ ∀ rest, loadAct o e0 (ts ++ rest) = some (over e0 e, rest) := by
  obtain ⟨fn, data, next⟩ := e
  cases fn with
  | none =>
    refine ⟨.num (-1) :: saveNode o next, by simp [saveAct, saveFn], ?_⟩
    intro rest
    have := loadNode_save o e0.next next hn rest
    simp only [loadAct, loadFn, List.cons_append, readNum, Option.bind_eq_bind, Option.bind_some, if_true, Option.pure_def,
      this]
    simp [over]
  | some f =>
    obtain ⟨ws, e, hl⟩ := loadData_save (D := D) data hd
    refine ⟨[.num f.id, .num data.length] ++ ws.flatMap putWord ++ saveNode o next, by simp [saveAct, saveFn, e], ?_⟩
    intro rest
    have h1 := loadNode_save o e0.next next hn rest
    have h2 := hl (saveNode o next ++ rest)
    have hne : ¬ ((f.id : Int) = -1) := by omega
    simp only [List.append_assoc, List.cons_append, List.nil_append, loadAct, loadFn, readNum, Option.bind_eq_bind,
      Option.bind_some, if_neg hne, hf f rfl, Int.toNat_natCast, h2, h1, Option.pure_def]
    simp [over]

/-! ## Keys -/

/-- Kinds of tables whose lookup structure copies the keys. -/
def Copies : TableKind → Prop
  | .exact _ => True
  | .lpm _ => True
  | _ => False

/-- Bytes of the lookup key. -/
def nbytes : TableKind → Nat
  | .exact n => n
  | .lpm n => n
  | .ternary n _ => n
  | .range n _ => n

theorem readBytes_save {b : Bytes} (h : b ≠ []) (rest : List (Tok D)) :
    readBytes (putWord (toHex b) ++ rest) = some (b, rest) := by
  rw [putWord_of (toHex_ne h)]
  simp [readBytes, readWord, fromHex_toHex h]

theorem loadKey_save (t : TableKind) (hc : Copies t) (hp : 0 < nbytes t) (k : t.K) (hk : t.spec.okK k)
    (rest : List (Tok D)) : loadKey t (saveKey t k ++ rest) = some (k, rest) := by
  match t, hc with
  | .exact n, _ =>
    have hk : List.length k = n := hk
    have : (k : Bytes) ≠ [] := by rintro rfl; simp [nbytes] at hp hk; omega
    exact readBytes_save this rest
  | .lpm n, _ =>
    obtain ⟨d, l⟩ := k
    have hk : d.length = n ∧ l ≤ 8 * n := hk
    have : d ≠ [] := by rintro rfl; simp [nbytes] at hp hk; omega
    have e := readBytes_save this (Tok.num (D := D) l :: rest)
    simp only [loadKey, saveKey, List.append_assoc, List.cons_append, List.nil_append, e, readNum, Option.bind_eq_bind,
      Option.bind_some, Option.pure_def, Int.toNat_natCast]

theorem restoreAdd_ok (t : TableKind) (hc : Copies t) {s : t.str.S} {n : Nat} {E : Nat → Option t.K}
    (h : t.laws.Rep s n E) (k : t.K) (i : Nat) (hk : t.spec.okK k) (hi : i < n) (hf : E i = none)
    (hnew : ∀ j k', E j = some k' → ¬ t.spec.same k' k) :
    ∃ s', restoreAdd t s k i = some s' ∧ t.laws.Rep s' n (fun j => if j = i then some k else E j) := by
  match t, hc with
  | .exact n, _ => exact exact_add h k i hk hi hf hnew
  | .lpm n, _ => exact lpm_add h k i hk hi hf hnew

end Bm.Save
