import Verif.Model.LogMsg
import Verif.Spec.LogMsg

/-!
# Lemmas on `log_msg`
-/

namespace Bm.LogMsg

open Bm.LogMsg.Spec

/-- The string while it is processed: escaped brackets are still escaped or not, placeholders beyond
the arguments stay. -/
def render (e1 e2 : Bool) : List Tok → List (List Char) → List Char
  | [], _ => []
  | .ch c :: ts, args => c :: render e1 e2 ts args
  | .esc true :: ts, args => (if e1 then ['\\', '{'] else ['{']) ++ render e1 e2 ts args
  | .esc false :: ts, args => (if e2 then ['\\', '}'] else ['}']) ++ render e1 e2 ts args
  | .hole _ :: ts, a :: args => a ++ render e1 e2 ts args
  | .hole body :: ts, [] => '{' :: body ++ ['}'] ++ render e1 e2 ts []

theorem format_cons (t : Tok) (ts : List Tok) : format (t :: ts) = t.written ++ format ts := by
  simp [format]

theorem find_at (c : Char) (pre s : List Char) :
    find c (pre ++ s) pre.length = (s.findIdx? (· == c)).map (· + pre.length) := by
  unfold find
  simp

theorem find_skip (c : Char) (pre s : List Char) (h : s.head? ≠ some c) :
    find c (pre ++ s) (pre.length + 1) = (s.findIdx? (· == c)).map (· + pre.length) := by
  unfold find
  cases s with
  | nil =>
    have : (pre ++ []).drop (pre.length + 1) = [] := List.drop_eq_nil_of_le (by simp)
    rw [this]; simp
  | cons x s =>
    have hx : (x == c) = false := by simpa using h
    rw [show pre ++ x :: s = (pre ++ [x]) ++ s by simp, show pre.length + 1 = (pre ++ [x]).length by simp,
      List.drop_left, List.findIdx?_cons, hx]
    simp only [cond_false, Option.map_map, Bool.false_eq_true, if_false]
    congr 1
    funext i
    simp only [Function.comp, List.length_append, List.length_singleton]
    omega

/-- Nothing is skipped: the search goes on at the end of `pre`. -/
def At (pre s : List Char) (o : Nat) : Prop :=
  find '{' (pre ++ s) (o + 1) = (s.findIdx? (· == '{')).map (· + pre.length)

theorem At.shift {pre s : List Char} {o : Nat} {p : List Char} (hp : ∀ c ∈ p, c ≠ '{')
    (h : At pre (p ++ s) o) : At (pre ++ p) s o := by
  unfold At at h ⊢
  rw [List.append_assoc, h]
  clear h
  induction p generalizing pre with
  | nil => simp
  | cons x p ih =>
    have hx : (x == '{') = false := by simpa using hp x (by simp)
    have := ih (pre := pre ++ [x]) (fun c hc => hp c (by simp [hc]))
    have e2 : (pre ++ x :: p).length = ((pre ++ [x]) ++ p).length := by simp
    rw [List.cons_append, List.findIdx?_cons, hx, e2, ← this]
    simp only [Bool.false_eq_true, if_false, Option.map_map]
    congr 1
    funext i
    simp only [Function.comp, List.length_append, List.length_singleton]
    omega

theorem loop_none {args : List (List Char)} {n : Nat} {st : St} (h : find '{' st.str (st.open + 1) = none) :
    loop args (n + 1) st = .inr st := by
  unfold loop
  rw [h]

theorem loop_esc {args : List (List Char)} {n q : Nat} {st : St}
    (h : find '{' st.str (st.open + 1) = some (q + 1)) (hq : st.str[q]? = some '\\') :
    loop args (n + 1) st = loop args n { st with «open» := q + 1 } := by
  rw [loop, h]
  simp only [hq, if_true]

theorem loop_hole {args : List (List Char)} {n q e : Nat} {st : St}
    (h : find '{' st.str (st.open + 1) = some (q + 1)) (hq : st.str[q]? ≠ some '\\')
    (hc : findClose st.str (st.str.length + 1) (q + 1) = some (some e)) :
    loop args (n + 1) st = loop args n (step args st (q + 1) e) := by
  rw [loop, h]
  simp only [hq, if_false, hc]

theorem getElem?_last {pre s : List Char} {x : Char} (h : pre.getLast? = some x) :
    (pre ++ s)[pre.length - 1]? = some x := by
  have hne : pre ≠ [] := by rintro rfl; simp at h
  have hl : 0 < pre.length := List.length_pos_iff.2 hne
  rw [List.getElem?_append_left (by omega), ← h, List.getLast?_eq_getElem?]

theorem findClose_hole {pre body s : List Char} (hb : ∀ c ∈ body, c ≠ '{' ∧ c ≠ '}' ∧ c ≠ '\\') (n : Nat) :
    findClose (pre ++ ('{' :: body ++ ['}'] ++ s)) (n + 1) pre.length
      = some (some (pre.length + body.length + 1)) := by
  have h1 : ('{' :: body ++ ['}'] ++ s).findIdx? (· == '}') = some (body.length + 1) := by
    rw [List.findIdx?_eq_some_iff_getElem]
    refine ⟨by simp, by simp, ?_⟩
    intro j hj
    have : ∀ c ∈ ('{' :: body), c ≠ '}' := by
      intro c hc
      rcases List.mem_cons.1 hc with rfl | hc
      · decide
      · exact (hb c hc).2.1
    have hm : ('{' :: body ++ ['}'] ++ s)[j]'(by simp; omega) ∈ ('{' :: body) := by
      have : j < ('{' :: body).length := by simp; omega
      rw [List.getElem_append_left (by simp; omega), List.getElem_append_left this]
      exact List.getElem_mem _
    simpa using this _ hm
  have h2 : (pre ++ ('{' :: body ++ ['}'] ++ s))[pre.length + body.length]? ≠ some '\\' := by
    rw [List.getElem?_append_right (by omega), show pre.length + body.length - pre.length = body.length by omega]
    have hlt : body.length < ('{' :: body).length := by simp
    rw [List.append_assoc, List.getElem?_append_left hlt]
    have hm : ('{' :: body)[body.length] ∈ ('{' :: body) := List.getElem_mem _
    rw [List.getElem?_eq_getElem hlt]
    intro he
    rcases List.mem_cons.1 hm with h | h
    · rw [h] at he; revert he; decide
    · exact (hb _ h).2.2 (Option.some.inj he)
  unfold findClose
  rw [find_at, h1]
  simp only [Option.map_some]
  rw [show body.length + 1 + pre.length - 1 = pre.length + body.length by omega, if_neg h2]
  congr 2
  omega

theorem loop_spec (args : List (List Char)) : ∀ (ts : List Tok) (b : Bool) (pre : List Char) (o k n : Nat),
    (∀ t ∈ ts, t.Ok) → Apart b ts → At pre (format ts) o →
    (b = true → ∃ x, pre.getLast? = some x ∧ x ≠ '\\') → (format ts).length < n →
    ∃ o', loop args n ⟨pre ++ format ts, o, k⟩
      = .inr ⟨pre ++ render true true ts (args.drop k), o', k + holes ts⟩ := by
  intro ts
  induction ts with
  | nil =>
    intro b pre o k n _ _ hat _ hn
    obtain ⟨m, rfl⟩ : ∃ m, n = m + 1 := ⟨n - 1, by omega⟩
    refine ⟨o, ?_⟩
    unfold At at hat
    simp only [format, List.flatMap_nil] at hat ⊢
    rw [loop_none (by rw [hat]; simp)]
    simp [render, holes]
  | cons t ts ih =>
    intro b pre o k n hok hap hat hb hn
    have hok' : ∀ t ∈ ts, t.Ok := fun x hx => hok x (by simp [hx])
    have ht := hok t (by simp)
    rw [format_cons] at hat hn ⊢
    rw [List.length_append] at hn
    cases t with
    | ch c =>
      have ht' : c ≠ '{' ∧ c ≠ '\\' := ht
      obtain ⟨o', e⟩ := ih true (pre ++ [c]) o k n hok' hap (hat.shift (by simpa [Tok.written] using ht'.1))
        (fun _ => ⟨c, by simp, ht'.2⟩) (by omega)
      refine ⟨o', ?_⟩
      simpa [Tok.written, render, holes] using e
    | esc op =>
      cases op with
      | false =>
        obtain ⟨o', e⟩ := ih true (pre ++ ['\\', '}']) o k n hok' hap (hat.shift (by simp [Tok.written]))
          (fun _ => ⟨'}', by simp, by decide⟩) (by omega)
        refine ⟨o', ?_⟩
        simpa [Tok.written, render, holes] using e
      | true =>
        obtain ⟨m, rfl⟩ : ∃ m, n = m + 1 := ⟨n - 1, by omega⟩
        have h1 := find_at '{' (pre ++ ['\\', '{']) (format ts)
        obtain ⟨o', e⟩ := ih true (pre ++ ['\\', '{']) (pre.length + 1) k m hok' hap
          (by unfold At; simpa using h1)
          (fun _ => ⟨'{', by simp, by decide⟩) (by simp [Tok.written] at hn; omega)
        refine ⟨o', ?_⟩
        unfold At at hat
        simp only [Tok.written] at hat ⊢
        have hf : (['\\', '{'] ++ format ts).findIdx? (· == '{') = some 1 := by
          simp [List.findIdx?_cons]
        rw [hf, Option.map_some, show 1 + pre.length = pre.length + 1 by omega] at hat
        have hq : (pre ++ (['\\', '{'] ++ format ts))[pre.length]? = some '\\' := by simp
        rw [loop_esc hat hq]
        simpa [render, holes] using e
    | hole body =>
      obtain ⟨hbt, hap'⟩ := hap
      obtain ⟨x, hx1, hx2⟩ := hb hbt
      have hbody : ∀ c ∈ body, c ≠ '{' ∧ c ≠ '}' ∧ c ≠ '\\' := ht
      obtain ⟨m, rfl⟩ : ∃ m, n = m + 1 := ⟨n - 1, by omega⟩
      have hne : pre ≠ [] := by rintro rfl; simp at hx1
      obtain ⟨q, hq⟩ : ∃ q, pre.length = q + 1 := ⟨pre.length - 1, by
        have := List.length_pos_iff.2 hne; omega⟩
      have hf : ('{' :: body ++ ['}'] ++ format ts).findIdx? (· == '{') = some 0 := by
        simp [List.findIdx?_cons]
      have hfind : find '{' (pre ++ ('{' :: body ++ ['}'] ++ format ts)) (o + 1) = some (q + 1) := by
        unfold At at hat
        simp only [Tok.written] at hat
        rw [hat, hf, Option.map_some, hq, Nat.zero_add]
      have hlast : (pre ++ ('{' :: body ++ ['}'] ++ format ts))[q]? ≠ some '\\' := by
        have := getElem?_last (s := '{' :: body ++ ['}'] ++ format ts) hx1
        rw [hq, Nat.add_sub_cancel] at this
        rw [this]
        intro h
        exact hx2 (Option.some.inj h)
      have hclose := findClose_hole (pre := pre) (s := format ts) hbody
        (pre ++ ('{' :: body ++ ['}'] ++ format ts)).length
      rw [hq] at hclose
      have hhead : (format ts).head? ≠ some '{' := by
        cases ts with
        | nil => simp [format]
        | cons t ts =>
          rw [format_cons]
          cases t with
          | ch c =>
            have : Tok.Ok (.ch c) := hok _ (by simp)
            simpa [Tok.written] using this.1
          | esc op => cases op <;> simp [Tok.written]
          | hole _ => exact absurd hap'.1 (by simp)
      have hunf : loop args (m + 1) ⟨pre ++ ('{' :: body ++ ['}'] ++ format ts), o, k⟩
          = loop args m (step args ⟨pre ++ ('{' :: body ++ ['}'] ++ format ts), o, k⟩ (q + 1)
            (q + 1 + body.length + 1)) :=
        loop_hole hfind hlast hclose
      simp only [Tok.written]
      rw [hunf]
      simp only [Tok.written, List.length_append, List.length_cons, List.length_nil] at hn
      unfold step
      cases ha : args[k]? with
      | some a =>
        have hd : args.drop k = a :: args.drop (k + 1) := by
          obtain ⟨hk, hka⟩ := List.getElem?_eq_some_iff.1 ha
          rw [List.drop_eq_getElem_cons hk, hka]
        have htake : (pre ++ ('{' :: body ++ ['}'] ++ format ts)).take (q + 1) = pre := by
          rw [← hq]; simp
        have hdrop : (pre ++ ('{' :: body ++ ['}'] ++ format ts)).drop (q + 1 + body.length + 1 + 1)
            = format ts := by
          rw [← hq, show pre.length + body.length + 1 + 1 = (pre ++ ('{' :: body ++ ['}'])).length by simp; omega,
            show pre ++ ('{' :: body ++ ['}'] ++ format ts) = (pre ++ ('{' :: body ++ ['}'])) ++ format ts by simp,
            List.drop_left]
        simp only [htake, hdrop]
        obtain ⟨o', e⟩ := ih false (pre ++ a) (q + 1 + a.length) (k + 1) m hok' hap'
          (by
            unfold At
            have := find_skip '{' (pre ++ a) (format ts) hhead
            rw [List.length_append, hq] at this
            rw [this, List.length_append, hq]) (by simp) (by omega)
        refine ⟨o', ?_⟩
        rw [e, hd]
        simp only [render, holes, List.append_assoc]
        congr 2
        omega
      | none =>
        have hd : args.drop k = [] := by
          rw [List.getElem?_eq_none_iff] at ha
          exact List.drop_eq_nil_of_le ha
        have hd' : args.drop (k + 1) = [] := by
          rw [List.getElem?_eq_none_iff] at ha
          exact List.drop_eq_nil_of_le (by omega)
        obtain ⟨o', e⟩ := ih false (pre ++ ('{' :: body ++ ['}'])) (q + 1 + (q + 1 + body.length + 1 - (q + 1)))
          (k + 1) m hok' hap'
          (by
            unfold At
            have := find_at '{' (pre ++ ('{' :: body ++ ['}'])) (format ts)
            have hl : (pre ++ ('{' :: body ++ ['}'])).length = q + 1 + (q + 1 + body.length + 1 - (q + 1)) + 1 := by
              simp; omega
            rw [hl] at this ⊢
            exact this) (by simp) (by omega)
        refine ⟨o', ?_⟩
        rw [show pre ++ ('{' :: body ++ ['}'] ++ format ts) = pre ++ ('{' :: body ++ ['}']) ++ format ts by simp,
          e, hd, hd']
        simp only [render, holes, List.append_assoc]
        congr 2
        omega

/-- Removing the backslashes before `b`. -/
def un (b : Char) : List Char → List Char
  | '\\' :: c :: r => if c = b then b :: un b r else '\\' :: un b (c :: r)
  | x :: r => x :: un b r
  | [] => []

theorem un_cons {b x : Char} (hx : x ≠ '\\') (r : List Char) : un b (x :: r) = x :: un b r := by
  rw [un]
  intro c r' h _
  exact absurd h hx

theorem un_append {b : Char} {p : List Char} (hp : ∀ c ∈ p, c ≠ '\\') (r : List Char) :
    un b (p ++ r) = p ++ un b r := by
  induction p with
  | nil => rfl
  | cons x p ih =>
    rw [List.cons_append, un_cons (hp x (by simp)), ih (fun c hc => hp c (by simp [hc]))]
    rfl

theorem findEsc_spec {b : Char} (hb : b ≠ '\\') : ∀ (s : List Char),
    (findEsc b s = none ∧ un b s = s) ∨
    ∃ p r, s = p ++ '\\' :: b :: r ∧ findEsc b s = some p.length ∧ un b s = p ++ b :: un b r
  | [] => Or.inl ⟨rfl, rfl⟩
  | [x] => by
    left
    by_cases hx : x = '\\'
    · subst hx; exact ⟨rfl, rfl⟩
    · refine ⟨?_, un_cons hx []⟩
      rw [findEsc]
      · rfl
      · intro c r h _; exact absurd h hx
  | x :: c :: r => by
    by_cases hx : x = '\\'
    · subst hx
      by_cases hc : c = b
      · subst hc
        right
        refine ⟨[], r, rfl, ?_, ?_⟩
        · simp [findEsc]
        · simp [un]
      · rcases findEsc_spec hb (c :: r) with ⟨h1, h2⟩ | ⟨p, r', h1, h2, h3⟩
        · left
          refine ⟨?_, ?_⟩
          · rw [findEsc, if_neg hc, h1]; rfl
          · rw [un, if_neg hc, h2]
        · right
          refine ⟨'\\' :: p, r', by rw [h1]; rfl, ?_, ?_⟩
          · rw [findEsc, if_neg hc, h2]; rfl
          · rw [un, if_neg hc, h3]; rfl
    · have hf : findEsc b (x :: c :: r) = (findEsc b (c :: r)).map (· + 1) := by
        rw [findEsc]
        intro c' r' h _
        exact absurd h hx
      rcases findEsc_spec hb (c :: r) with ⟨h1, h2⟩ | ⟨p, r', h1, h2, h3⟩
      · left
        exact ⟨by rw [hf, h1]; rfl, by rw [un_cons hx, h2]⟩
      · right
        exact ⟨x :: p, r', by rw [h1]; rfl, by rw [hf, h2]; rfl, by rw [un_cons hx, h3]; rfl⟩

theorem unescape_spec {b : Char} (hb : b ≠ '\\') : ∀ (n : Nat) (pre s : List Char), s.length < n →
    unescape b n (pre ++ s) pre.length = some (pre ++ un b s) := by
  intro n
  induction n with
  | zero => intro pre s h; omega
  | succ n ih =>
    intro pre s h
    unfold unescape
    rw [List.drop_left]
    rcases findEsc_spec hb s with ⟨h1, h2⟩ | ⟨p, r, h1, h2, h3⟩
    · rw [h1, h2]
    · rw [h2]
      simp only
      have he : (pre ++ s).eraseIdx (p.length + pre.length) = (pre ++ p) ++ (b :: r) := by
        rw [h1, List.eraseIdx_append_of_length_le (by omega),
          show p.length + pre.length - pre.length = p.length by omega,
          List.eraseIdx_append_of_length_le (by omega)]
        simp
      rw [he, show p.length + pre.length = (pre ++ p).length by simp; omega, ih (pre ++ p) (b :: r) (by
        rw [h1] at h; simp at h ⊢; omega), h3, un_cons hb]
      simp

theorem un_render_open {ts : List Tok} (hok : ∀ t ∈ ts, t.Ok) : ∀ (args : List (List Char)),
    (∀ a ∈ args, ∀ c ∈ a, c ≠ '\\') → un '{' (render true true ts args) = render false true ts args := by
  induction ts with
  | nil => intro _ _; rfl
  | cons t ts ih =>
    intro args ha
    have ih := ih (fun x hx => hok x (by simp [hx]))
    have ht := hok t (by simp)
    cases t with
    | ch c => rw [render, render, un_cons ht.2, ih args ha]
    | esc op =>
      cases op with
      | true =>
        rw [render, render, ← ih args ha]
        simp [un]
      | false =>
        rw [render, render, ← ih args ha]
        simp [un]
    | hole body =>
      have hb : ∀ c ∈ ('{' :: body ++ ['}']), c ≠ '\\' := by
        intro c hc
        simp only [List.cons_append, List.mem_cons, List.mem_append, List.not_mem_nil, or_false] at hc
        rcases hc with rfl | hc | rfl
        · decide
        · exact (ht c hc).2.2
        · decide
      cases args with
      | nil => rw [render, render, un_append hb, ih [] (by simp)]
      | cons a args =>
        rw [render, render, un_append (ha a (by simp)), ih args (fun x hx => ha x (by simp [hx]))]

theorem un_render_close {ts : List Tok} (hok : ∀ t ∈ ts, t.Ok) : ∀ (args : List (List Char)),
    (∀ a ∈ args, ∀ c ∈ a, c ≠ '\\') → un '}' (render false true ts args) = render false false ts args := by
  induction ts with
  | nil => intro _ _; rfl
  | cons t ts ih =>
    intro args ha
    have ih := ih (fun x hx => hok x (by simp [hx]))
    have ht := hok t (by simp)
    cases t with
    | ch c => rw [render, render, un_cons ht.2, ih args ha]
    | esc op =>
      cases op with
      | true =>
        rw [render, render, ← ih args ha]
        simp [un]
      | false =>
        rw [render, render, ← ih args ha]
        simp [un]
    | hole body =>
      have hb : ∀ c ∈ ('{' :: body ++ ['}']), c ≠ '\\' := by
        intro c hc
        simp only [List.cons_append, List.mem_cons, List.mem_append, List.not_mem_nil, or_false] at hc
        rcases hc with rfl | hc | rfl
        · decide
        · exact (ht c hc).2.2
        · decide
      cases args with
      | nil => rw [render, render, un_append hb, ih [] (by simp)]
      | cons a args =>
        rw [render, render, un_append (ha a (by simp)), ih args (fun x hx => ha x (by simp [hx]))]

theorem render_message : ∀ (ts : List Tok) (args : List (List Char)), holes ts = args.length →
    render false false ts args = message ts args
  | [], _, _ => rfl
  | .ch c :: ts, args, h => by rw [render, message, render_message ts args h]
  | .esc true :: ts, args, h => by rw [render, message, render_message ts args h]; rfl
  | .esc false :: ts, args, h => by rw [render, message, render_message ts args h]; rfl
  | .hole _ :: ts, a :: args, h => by
    rw [render, message, render_message ts args (by simpa [holes] using h)]
  | .hole _ :: ts, [], h => by simp [holes] at h

end Bm.LogMsg
