import Verif.Lemmas.LogMsg

/-!
# The message of `log_msg`

C93: the message logged is the format with the arguments in place of the placeholders and brackets in
place of the escaped brackets; if the number of arguments is not that of the placeholders, nothing is
logged and the switch ends with an error.

This is proved for formats in which something else precedes each placeholder (`Apart`), and it fails
for the others: the search for a bracket starts one position too far, so that a placeholder at the
start of the format, or right after another one, is not seen.  The switch then exits for the correct
number of arguments (`Ex.C93_refuted_start`, `Ex.C93_refuted_adjacent`), or logs the braces
(`Ex.C93_refuted_silent`).
-/

namespace Bm.LogMsg

open Bm.LogMsg.Spec

theorem Apart.head {ts : List Tok} (hok : ∀ t ∈ ts, t.Ok) (h : Apart false ts) :
    (format ts).head? ≠ some '{' := by
  cases ts with
  | nil => simp [format]
  | cons t ts =>
    rw [format_cons]
    cases t with
    | ch c =>
      have := (hok (.ch c) (by simp)).1
      simpa [Tok.written] using this
    | esc op => cases op <;> simp [Tok.written]
    | hole body => exact absurd h.1 (by decide)

/-- **C93**: for as many arguments as placeholders the message is logged, otherwise the switch ends. -/
theorem C93_partial {ts : List Tok} {args : List (List Char)} (hok : ∀ t ∈ ts, t.Ok) (hap : Apart false ts)
    (hargs : ∀ a ∈ args, ∀ c ∈ a, c ≠ '\\') :
    logMsg (format ts) args =
      if holes ts = args.length then .logged (message ts args) else .wrongCount (holes ts) args.length := by
  have hat : At [] (format ts) 0 := by
    have := find_skip '{' [] (format ts) (Apart.head hok hap)
    exact this
  obtain ⟨o', e⟩ := loop_spec args ts false [] 0 0 ((format ts).length + 1) hok hap hat (by simp) (by omega)
  simp only [List.nil_append, List.drop_zero, Nat.zero_add] at e
  unfold logMsg
  rw [e]
  by_cases hc : holes ts = args.length
  · simp only [hc, if_true]
    unfold finish
    have h1 := unescape_spec (b := '{') (by decide) ((render true true ts args).length + 1) []
      (render true true ts args) (by omega)
    simp only [List.nil_append, List.length_nil, un_render_open hok args hargs] at h1
    have h2 := unescape_spec (b := '}') (by decide) ((render false true ts args).length + 1) []
      (render false true ts args) (by omega)
    simp only [List.nil_append, List.length_nil, un_render_close hok args hargs] at h2
    rw [h1]
    simp only [h2, render_message ts args hc]
  · simp only [hc, if_false]

theorem find_bounds {c : Char} {s : List Char} {pos i : Nat} (h : find c s pos = some i) :
    pos ≤ i ∧ i < s.length := by
  unfold find at h
  obtain ⟨j, hj, rfl⟩ := Option.map_eq_some_iff.1 h
  have := (List.findIdx?_eq_some_iff_getElem.1 hj).1
  rw [List.length_drop] at this
  omega

theorem findClose_total (s : List Char) : ∀ (n tmp : Nat), s.length < n + tmp → 0 < n → findClose s n tmp ≠ none := by
  intro n
  induction n with
  | zero => intro tmp _ h; omega
  | succ n ih =>
    intro tmp h _
    unfold findClose
    cases hf : find '}' s tmp with
    | none => simp
    | some e =>
      simp only
      obtain ⟨h1, h2⟩ := find_bounds hf
      split
      · by_cases hn : 0 < n
        · exact ih (e + 1) (by omega) hn
        · omega
      · simp

theorem findClose_bounds {s : List Char} : ∀ {n tmp e : Nat}, findClose s n tmp = some (some e) → tmp ≤ e ∧ e < s.length := by
  intro n
  induction n with
  | zero => intro tmp e h; cases h
  | succ n ih =>
    intro tmp e h
    unfold findClose at h
    cases hf : find '}' s tmp with
    | none => rw [hf] at h; simp at h
    | some e' =>
      rw [hf] at h
      simp only at h
      obtain ⟨h1, h2⟩ := find_bounds hf
      split at h
      · have := ih h
        omega
      · simp only [Option.some.injEq] at h
        omega

theorem loop_total (args : List (List Char)) : ∀ (n : Nat) (st : St), st.str.length < n + st.open → 0 < n →
    loop args n st ≠ .inl .stuck ∧ loop args n st ≠ .inl .ub := by
  intro n
  induction n with
  | zero => intro st _ h; omega
  | succ n ih =>
    intro st h _
    unfold loop
    cases hf : find '{' st.str (st.open + 1) with
    | none => simp
    | some p =>
      obtain ⟨h1, h2⟩ := find_bounds hf
      obtain ⟨q, rfl⟩ : ∃ q, p = q + 1 := ⟨p - 1, by omega⟩
      simp only
      split
      · exact ih _ (by simp only; omega) (by omega)
      · cases hc : findClose st.str (st.str.length + 1) (q + 1) with
        | none => exact absurd hc (findClose_total _ _ _ (by omega) (by omega))
        | some r =>
          cases r with
          | none => simp
          | some e =>
            simp only
            have hb := findClose_bounds hc
            apply ih
            · unfold step
              cases args[st.counter]? with
              | none => simp only; omega
              | some a =>
                simp only [List.length_append, List.length_take, List.length_drop]
                omega
            · omega

/-- **C93** (always ends): whatever the format and the arguments are, the loops end, and no character
before the string is read: the message is logged or the switch ends with one of the two errors. -/
theorem C93_ends (f : List Char) (args : List (List Char)) :
    (∃ s, logMsg f args = .logged s) ∨ logMsg f args = .noMatching ∨
      ∃ k, k ≠ args.length ∧ logMsg f args = .wrongCount k args.length := by
  have ht := loop_total args (f.length + 1) ⟨f, 0, 0⟩ (by simp) (by omega)
  unfold logMsg
  cases hl : loop args (f.length + 1) ⟨f, 0, 0⟩ with
  | inl o =>
    rw [hl] at ht
    have : ∀ (n : Nat) (st : St) (o : Out), loop args n st = .inl o → o = .stuck ∨ o = .ub ∨ o = .noMatching := by
      intro n
      induction n with
      | zero => intro st o h; cases h; exact Or.inl rfl
      | succ n ih =>
        intro st o h
        unfold loop at h
        split at h
        · cases h
        · cases h; exact Or.inr (Or.inl rfl)
        · split at h
          · exact ih _ _ h
          · split at h
            · cases h; exact Or.inl rfl
            · cases h; exact Or.inr (Or.inr rfl)
            · exact ih _ _ h
    rcases this _ _ _ hl with rfl | rfl | rfl
    · exact absurd rfl ht.1
    · exact absurd rfl ht.2
    · exact Or.inr (Or.inl rfl)
  | inr st =>
    simp only
    split
    · left
      unfold finish
      have h1 := unescape_spec (b := '{') (by decide) (st.str.length + 1) [] st.str (by omega)
      simp only [List.nil_append, List.length_nil] at h1
      rw [h1]
      have h2 := unescape_spec (b := '}') (by decide) ((un '{' st.str).length + 1) [] (un '{' st.str) (by omega)
      simp only [List.nil_append, List.length_nil] at h2
      simp only [h2]
      exact ⟨_, rfl⟩
    · rename_i hne
      exact Or.inr (Or.inr ⟨_, hne, rfl⟩)

namespace Ex

/-- A case with all parts: `x={} \{{a}\}` (the second placeholder follows an escaped bracket). -/
def ts : List Tok :=
  [.ch 'x', .ch '=', .hole [], .ch ' ', .esc true, .hole ['a'], .esc false]

theorem C93_case : (∀ t ∈ ts, t.Ok) ∧ Apart false ts ∧ format ts = "x={} \\{{a}\\}".toList ∧
    logMsg (format ts) ["12".toList, "7".toList] = .logged "x=12 {7}".toList ∧
    logMsg (format ts) ["12".toList] = .wrongCount 2 1 ∧
    logMsg (format ts) ["12".toList, "7".toList, "8".toList] = .wrongCount 2 3 := by
  refine ⟨?_, ⟨rfl, rfl, trivial⟩, by decide, by decide, by decide, by decide⟩
  intro t ht
  simp only [ts, List.mem_cons, List.not_mem_nil, or_false] at ht
  rcases ht with rfl | rfl | rfl | rfl | rfl | rfl | rfl <;> simp [Tok.Ok]

/-- A placeholder at the start is not seen: the switch exits though the call is correct. -/
theorem C93_refuted_start : holes [.hole []] = 1 ∧ message [.hole []] ["1".toList] = "1".toList ∧
    format [.hole []] = "{}".toList ∧ logMsg "{}".toList ["1".toList] = .wrongCount 0 1 := by
  refine ⟨rfl, rfl, rfl, by decide⟩

/-- A placeholder right after another one is not seen either. -/
theorem C93_refuted_adjacent : holes [.ch 'a', .hole [], .hole []] = 2 ∧
    format [.ch 'a', .hole [], .hole []] = "a{}{}".toList ∧
    logMsg "a{}{}".toList ["1".toList, "2".toList] = .wrongCount 1 2 := by
  refine ⟨rfl, rfl, by decide⟩

/-- A missing argument goes unnoticed. -/
theorem C93_refuted_silent : logMsg "{} a".toList [] = .logged "{} a".toList ∧
    holes [.hole [], .ch ' ', .ch 'a'] = 1 ∧ format [.hole [], .ch ' ', .ch 'a'] = "{} a".toList := by
  refine ⟨by decide, rfl, rfl⟩

/-- Without a closing bracket the switch ends. -/
theorem C93_case_unmatched : logMsg "a{\\}".toList ["1".toList] = .noMatching := by decide

end Ex

end Bm.LogMsg
