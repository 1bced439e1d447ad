import Verif.Model.Elog
import Verif.Lemmas.Pipeline

/-!
# Lemmas on the event log
-/

namespace Bm.Elog
open Spec Pipe MT

/-! ## Messages -/

theorem le_length : ∀ k n, (le k n).length = k
  | 0, _ => rfl
  | k + 1, n => by rw [le, List.length_cons, le_length]

theorem unle_le : ∀ k n, unle (le k n) = n % 256 ^ k
  | 0, n => by simp [le, unle, Nat.mod_one]
  | k + 1, n => by
    rw [le, unle, unle_le, show (n % 256).toUInt8.toNat = n % 256 by simp [Nat.toUInt8], Nat.pow_succ', Nat.mod_mul]

theorem i32_length (x : Int) : (i32 x).length = 4 := le_length _ _

theorem signed_i32 {x : Int} (h : I32 x) : signed (i32 x) = x := by
  obtain ⟨h1, h2⟩ := h
  have e : unle (i32 x) = (x % 2 ^ 32).toNat := by
    rw [i32, unle_le]
    exact Nat.mod_eq_of_lt (by have : (256 : Nat) ^ 4 = 4294967296 := by decide
                               omega)
  rw [signed, e]
  split <;> omega

/-- What is shown instead of an unsigned number that does not fit. -/
theorem signed_big {x : Int} (h1 : 2 ^ 31 ≤ x) (h2 : x < 2 ^ 32) : signed (i32 x) = x - 2 ^ 32 := by
  have e : unle (i32 x) = (x % 2 ^ 32).toNat := by
    rw [i32, unle_le]
    exact Nat.mod_eq_of_lt (by have : (256 : Nat) ^ 4 = 4294967296 := by decide
                               omega)
  rw [signed, e]
  split <;> omega

theorem hdr_length (t : Int) (p : Pk) : (hdr t p).length = 40 := by
  simp [hdr, i32_length, le_length]

theorem take_hdr (t : Int) (p : Pk) (b : Bytes) : (hdr t p ++ b).take 4 = i32 t := by
  rw [hdr, List.append_assoc]
  exact List.take_left' (i32_length t)

theorem extractHdr_hdr (t : Int) {p : Pk} (h : p.Fits) (b : Bytes) : extractHdr (hdr t p ++ b) = some (p, b) := by
  have hl : ¬ (hdr t p ++ b).length < 40 := by rw [List.length_append, hdr_length]; omega
  rw [extractHdr, if_neg hl]
  have a1 : (hdr t p ++ b).drop 4 = le 8 p.dev ++ (le 4 p.cxt ++ (le 8 p.sig ++ (le 8 p.id ++ (le 8 p.copy ++ b)))) := by
    simp only [hdr, List.append_assoc]
    exact List.drop_left' (i32_length t)
  have a2 : (hdr t p ++ b).drop 12 = le 4 p.cxt ++ (le 8 p.sig ++ (le 8 p.id ++ (le 8 p.copy ++ b))) := by
    rw [show (12 : Nat) = 4 + 8 from rfl, ← List.drop_drop, a1]
    exact List.drop_left' (le_length _ _)
  have a3 : (hdr t p ++ b).drop 16 = le 8 p.sig ++ (le 8 p.id ++ (le 8 p.copy ++ b)) := by
    rw [show (16 : Nat) = 12 + 4 from rfl, ← List.drop_drop, a2]
    exact List.drop_left' (le_length _ _)
  have a4 : (hdr t p ++ b).drop 24 = le 8 p.id ++ (le 8 p.copy ++ b) := by
    rw [show (24 : Nat) = 16 + 8 from rfl, ← List.drop_drop, a3]
    exact List.drop_left' (le_length _ _)
  have a5 : (hdr t p ++ b).drop 32 = le 8 p.copy ++ b := by
    rw [show (32 : Nat) = 24 + 8 from rfl, ← List.drop_drop, a4]
    exact List.drop_left' (le_length _ _)
  have a6 : (hdr t p ++ b).drop 40 = b := List.drop_left' (hdr_length t p)
  have e8 : (256 : Nat) ^ 8 = 2 ^ 64 := by decide
  have e4 : (256 : Nat) ^ 4 = 2 ^ 32 := by decide
  rw [a1, a2, a3, a4, a5, a6, List.take_left' (le_length _ _), List.take_left' (le_length _ _),
    List.take_left' (le_length _ _), List.take_left' (le_length _ _), List.take_left' (le_length _ _),
    unle_le, unle_le, unle_le, unle_le, unle_le, e8, e4, Nat.mod_eq_of_lt h.dev, Nat.mod_eq_of_lt h.cxt,
    Nat.mod_eq_of_lt h.sig, Nat.mod_eq_of_lt h.id, Nat.mod_eq_of_lt h.copy]

theorem unpack1_i32 {x : Int} (h : I32 x) : unpack1 (i32 x) = some x := by
  rw [unpack1, if_pos (i32_length x), signed_i32 h]

theorem unpack2_i32 (x y : Int) : unpack2 (i32 x ++ i32 y) = some (signed (i32 x), signed (i32 y)) := by
  have hl : (i32 x ++ i32 y).length = 8 := by rw [List.length_append, i32_length, i32_length]
  rw [unpack2, if_pos hl, List.take_left' (i32_length x), List.drop_left' (i32_length x)]

theorem type_range (e : Ev) : I32 e.type ∧ e.type ≠ 999 := by
  cases e <;> simp [Ev.type, I32]

theorem receive_of {p : Pk} (hp : p.Fits) {e e' : Ev} (h : extractBody e.type e.body = some (some e')) :
    receive (message p e) = .event p e' := by
  have hl : ¬ (message p e).length < 4 := by rw [message, List.length_append, hdr_length]; omega
  have ht : signed ((message p e).take 4) = e.type := by rw [message, take_hdr, signed_i32 (type_range e).1]
  rw [receive, if_neg hl]
  dsimp only
  rw [ht, if_neg (type_range e).2, message, extractHdr_hdr _ hp]
  dsimp only
  rw [h]

theorem extractBody_body {e : Ev} (h : e.Fits) : extractBody e.type e.body = some (some e) := by
  cases e with
  | cond i b =>
    have h2 : I32 (if b then 1 else 0) := by cases b <;> simp [I32]
    simp only [Ev.type, Ev.body, extractBody, unpack2_i32, signed_i32 h, signed_i32 h2]
    cases b <;> simp
  | hit i x =>
    simp only [Ev.type, Ev.body, extractBody, unpack2_i32, signed_i32 h.1, signed_i32 h.2]
    simp
  | _ =>
    simp only [Ev.type, Ev.body, extractBody, unpack1_i32 h]
    simp

theorem receive_message {p : Pk} (hp : p.Fits) {e : Ev} (he : e.Fits) : receive (message p e) = .event p e :=
  receive_of hp (extractBody_body he)

theorem receive_change {dev : Nat} (h : dev < 2 ^ 64) : receive (changeMessage dev) = .change dev := by
  have hl : ¬ (changeMessage dev).length < 4 := by rw [changeMessage, hdr_length]; omega
  have hf : Pk.Fits ⟨dev, 0, 0, 0, 0⟩ := ⟨h, Nat.two_pow_pos _, Nat.two_pow_pos _, Nat.two_pow_pos _, Nat.two_pow_pos _⟩
  have ht : signed ((changeMessage dev).take 4) = 999 := by
    have := take_hdr 999 ⟨dev, 0, 0, 0, 0⟩ []
    rw [List.append_nil] at this
    rw [changeMessage, this]
    exact signed_i32 (by simp [I32])
  have hh : extractHdr (changeMessage dev) = some (⟨dev, 0, 0, 0, 0⟩, []) := by
    have := extractHdr_hdr 999 hf []
    rwa [List.append_nil] at this
  rw [receive, if_neg hl]
  dsimp only
  rw [ht, if_pos rfl, hh]

/-! ## Names -/

theorem lookupName_some {objs : Objects} {o : Kind × Int} {s : String} (h : lookupName objs o = some s) :
    (o, s) ∈ objs := by
  simp only [lookupName, Option.map_eq_some_iff] at h
  obtain ⟨⟨a, b⟩, h, rfl⟩ := h
  have h1 := List.find?_some h
  have h2 := List.mem_of_find?_eq_some h
  simp only [decide_eq_true_eq] at h1
  subst h1
  simpa using h2

theorem lookupName_none {objs : Objects} {o : Kind × Int} (h : lookupName objs o = none) (s : String) : (o, s) ∉ objs := by
  intro hm
  simp only [lookupName, Option.map_eq_none_iff, List.find?_eq_none, List.mem_reverse, decide_eq_true_eq] at h
  exact h _ hm rfl

theorem shownName_ok {objs : Objects} (hd : Distinct objs) (o : Option (Kind × Int)) : NameOk objs o (shownName objs o) := by
  cases o with
  | none => intro x s h; cases h
  | some x =>
    simp only [shownName, Option.bind_some]
    cases h : lookupName objs x with
    | none =>
      intro y s hy hm
      cases hy
      exact absurd hm (lookupName_none h s)
    | some s =>
      have hm := lookupName_some h
      by_cases hs : s = ""
      · subst hs
        dsimp only
        rw [if_pos rfl]
        intro y s hy hm'
        cases hy
        exact hd _ _ _ hm' hm
      · dsimp only
        rw [if_neg hs]
        exact ⟨x, rfl, hm⟩

theorem client_log {dev : Nat} (hdev : dev < 2 ^ 64) : ∀ (is : List Item) (objs : Objects), Distinct objs →
    (∀ i ∈ is, i.Fits) → Log dev objs is (client objs (configs is) (is.map (sent dev)))
  | [], objs, _, _ => .nil objs
  | .event pk e :: is, objs, hd, hf => by
    have h1 := hf _ (List.mem_cons_self ..)
    have ih := client_log hdev is objs hd fun i hi => hf i (List.mem_cons_of_mem _ hi)
    rw [List.map_cons, client, sent, receive_message h1.1 h1.2]
    exact .event (shownName_ok hd _) ih
  | .change objs' :: is, objs, hd, hf => by
    have h1 := hf _ (List.mem_cons_self ..)
    have ih := client_log hdev is objs' h1 fun i hi => hf i (List.mem_cons_of_mem _ hi)
    rw [List.map_cons, client, sent, receive_change hdev]
    exact .change ih

theorem log_about {dev : Nat} (pk : Pk) {objs : Objects} {is : List Item} {ls : List Line} (h : Log dev objs is ls) :
    ls.filterMap (Line.about pk) = is.filterMap (Item.about pk) := by
  induction h with
  | nil => rfl
  | event _ _ ih => rw [List.filterMap_cons, List.filterMap_cons, ih]; rfl
  | change _ ih => exact ih

end Bm.Elog
