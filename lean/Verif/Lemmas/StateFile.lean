import Verif.Model.StateFile
import Verif.Lemmas.Md5

namespace Bm.StateFile
open Md5.Spec

theorem configMd5_eq {buf config : Bytes} (hb : buf.length = 64) (hc : config.length < 2 ^ 64) :
    configMd5 buf config = some (md5 config) := by
  obtain ⟨c, e, h⟩ := Md5.updates_eq [config] _ [] (Md5.inv_init buf hb) (by simpa using hc)
  rw [configMd5, Md5.digest, e]
  show Md5.final c = _
  rw [Md5.final_eq c _ h]
  simp

theorem dropWhile_append_neg {p : UInt8 → Bool} : ∀ {l r : Bytes}, (∃ x ∈ l, p x = false) →
    (l ++ r).dropWhile p = l.dropWhile p ++ r
  | [], _, h => by simp at h
  | x :: l, r, h => by
    by_cases hx : p x = true
    · have : ∃ y ∈ l, p y = false := by
        obtain ⟨y, hy, hp⟩ := h
        rcases List.mem_cons.1 hy with rfl | hy
        · rw [hx] at hp; cases hp
        · exact ⟨y, hy, hp⟩
      simp [hx, dropWhile_append_neg this]
    · simp [hx]

theorem takeWhile_sep {p : UInt8 → Bool} {sep : UInt8} (hs : p sep = false) : ∀ (l r : Bytes),
    (l ++ sep :: r).takeWhile p = l.takeWhile p
  | [], r => by simp [hs]
  | x :: l, r => by
    by_cases hx : p x = true
    · simp [hx, takeWhile_sep hs l r]
    · simp [hx]

theorem dropWhile_all {p : UInt8 → Bool} : ∀ {l r : Bytes}, (∀ x ∈ l, p x = true) → (l ++ r).dropWhile p = r.dropWhile p
  | [], _, _ => rfl
  | x :: l, r, h => by
    simp [h x (by simp), dropWhile_all (l := l) (r := r) fun y hy => h y (by simp [hy])]

theorem takeWhile_all {p : UInt8 → Bool} : ∀ {l : Bytes}, (∀ x ∈ l, p x = true) → l.takeWhile p = l
  | [], _ => rfl
  | x :: l, h => by simp [h x (by simp), takeWhile_all (l := l) fun y hy => h y (by simp [hy])]

/-- A word without blanks, followed by a blank. -/
theorem readString_word {w : Bytes} (hne : w ≠ []) (hw : ∀ x ∈ w, isSpace x = false) (sep : UInt8) (hs : isSpace sep = true)
    (r : Bytes) : readString (w ++ sep :: r) = (w, sep :: r) := by
  have h1 : (w ++ sep :: r).dropWhile isSpace = w ++ sep :: r := by
    cases w with
    | nil => exact absurd rfl hne
    | cons x w => simp [hw x (by simp)]
  have hn : ∀ x ∈ w, (!isSpace x) = true := fun x hx => by rw [hw x hx]; rfl
  simp only [readString, h1]
  rw [takeWhile_sep (by simp [hs]), takeWhile_all hn, dropWhile_all hn]
  simp [hs]

theorem readString_skip {sep : UInt8} (hs : isSpace sep = true) (r : Bytes) : readString (sep :: r) = readString r := by
  simp [readString, hs]

theorem dropWhile_length_lt {p : UInt8 → Bool} : ∀ (l : Bytes), (l.dropWhile p).length ≤ l.length
  | [] => Nat.le_refl _
  | x :: l => by
    by_cases hx : p x = true
    · simp only [List.dropWhile_cons, hx, if_true, List.length_cons]
      exact Nat.le_succ_of_le (dropWhile_length_lt l)
    · simp [hx]

theorem takeWhile_length_le {p : UInt8 → Bool} : ∀ (l : Bytes), (l.takeWhile p).length ≤ l.length
  | [] => Nat.le_refl _
  | x :: l => by
    by_cases hx : p x = true
    · simp only [List.takeWhile_cons, hx, if_true, List.length_cons]
      exact Nat.succ_le_succ (takeWhile_length_le l)
    · simp [hx]

theorem takeWhile_length_lt {p : UInt8 → Bool} : ∀ (l : Bytes), (∃ x ∈ l, p x = false) → (l.takeWhile p).length < l.length
  | [], h => by simp at h
  | x :: l, h => by
    by_cases hx : p x = true
    · have : ∃ y ∈ l, p y = false := by
        obtain ⟨y, hy, hp⟩ := h
        rcases List.mem_cons.1 hy with rfl | hy
        · rw [hx] at hp; cases hp
        · exact ⟨y, hy, hp⟩
      simp only [List.takeWhile_cons, hx, if_true, List.length_cons]
      exact Nat.succ_lt_succ (takeWhile_length_lt l this)
    · simp [hx]

/-- A word with a blank in it, but not only blanks, is read back shorter. -/
theorem readString_short {w : Bytes} (h1 : ∃ x ∈ w, isSpace x = true) (h2 : ∃ x ∈ w, isSpace x = false) {sep : UInt8}
    (hs : isSpace sep = true) (r : Bytes) : (readString (w ++ sep :: r)).1.length < w.length := by
  simp only [readString]
  rw [dropWhile_append_neg h2, takeWhile_sep (by simp [hs])]
  cases w with
  | nil => simp at h1
  | cons x w =>
    by_cases hx : isSpace x = true
    · simp only [List.dropWhile_cons, hx, if_true, List.length_cons]
      exact Nat.lt_succ_of_le (Nat.le_trans (takeWhile_length_le _) (dropWhile_length_lt _))
    · have e : (x :: w).dropWhile isSpace = x :: w := by simp [hx]
      rw [e]
      apply takeWhile_length_lt
      obtain ⟨y, hy, hp⟩ := h1
      exact ⟨y, hy, by rw [hp]; rfl⟩

/-- The file after its version. -/
theorem read_version (r : Bytes) : readString (version ++ [10] ++ r) = (version, 10 :: r) := by
  rw [List.append_assoc]
  exact readString_word (by decide) (by decide) 10 (by decide) r

theorem save_eq {buf config : Bytes} (texts : List Bytes) (hb : buf.length = 64) (hc : config.length < 2 ^ 64) :
    save buf config texts = some (version ++ [10] ++ (md5 config ++ 10 :: texts.flatten)) := by
  rw [save, configMd5_eq hb hc]
  simp

theorem load_saved {buf config : Bytes} (loads : List (Bytes → Option Bytes)) (hb : buf.length = 64)
    (hc : config.length < 2 ^ 64) (r : Bytes) :
    load buf config loads (version ++ [10] ++ r) =
      if (readString r).1 ≠ md5 config then some .badConfig else (loadCxts loads (readString r).2).map .loaded := by
  simp only [load, configMd5_eq hb hc, read_version, Option.bind_eq_bind, Option.bind_some,
    readString_skip (sep := 10) (by decide)]
  rw [if_neg (fun h => h rfl)]
  split
  · rfl
  · cases loadCxts loads (readString r).2 <;> rfl

end Bm.StateFile
