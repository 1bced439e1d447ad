import Verif.Lemmas.CliValue

/-!
# Lemmas about the command line tool: match fields, names, commands
-/

namespace Bm.Cli
open Bm.Spec Bm.Cli.Spec Bm.Thrift

/-! ## Match fields -/

theorem lexLt_iff : ∀ {a b : Bytes}, a.length = b.length → (lexLt a b = true ↔ bytesNat a < bytesNat b)
  | [], [], _ => by simp [lexLt, bytesNat]
  | x :: a, y :: b, h => by
    have hl : a.length = b.length := by simpa using h
    have ih := lexLt_iff hl
    have h1 := bytesNat_lt a
    have h2 := bytesNat_lt b
    simp only [lexLt, Bool.or_eq_true, Bool.and_eq_true, decide_eq_true_eq, ih, bytesNat, hl]
    rw [hl] at h1
    generalize 256 ^ b.length = m at *
    rw [UInt8.lt_iff_toNat_lt, ← UInt8.toNat_inj]
    constructor
    · rintro (h | ⟨h, h'⟩)
      · have : (x.toNat + 1) * m ≤ y.toNat * m := Nat.mul_le_mul_right _ h
        rw [Nat.add_mul] at this
        omega
      · rw [h]; omega
    · intro h
      rcases Nat.lt_trichotomy x.toNat y.toNat with hc | hc | hc
      · exact .inl hc
      · rw [hc] at h; exact .inr ⟨hc, by omega⟩
      · have : (y.toNat + 1) * m ≤ x.toNat * m := Nat.mul_le_mul_right _ hc
        rw [Nat.add_mul] at this
        omega

theorem parseField_sound {v6 : V6} (hv : V6.Proper v6) {k : MType} {w : Nat} {s : Text} {p : TParam}
    (h : parseField v6 k w s = .ok p) : ∃ f, FieldText v6 (k, w) s f ∧ (f.Nonneg → Carries w f p) := by
  cases k with
  | exact =>
    simp only [parseField] at h
    obtain ⟨b, hb, h⟩ := bind_ok h
    cases h
    obtain ⟨v, h1, h2⟩ := value_sound hv hb
    exact ⟨.exact v, .exact h1, fun hn => h2 hn⟩
  | lpm =>
    simp only [parseField] at h
    obtain ⟨⟨a, l⟩, ha, h⟩ := bind_ok h
    obtain ⟨b, hb, h⟩ := bind_ok h
    obtain ⟨n, hn, h⟩ := bind_ok h
    cases h
    obtain ⟨v, h1, h2⟩ := value_sound hv hb
    have e := pair_some (of_err_ok ha)
    subst e
    refine ⟨.lpm v n, ?_, fun h => ⟨h2 h, rfl⟩⟩
    have := FieldText.lpm h1 (int10_iff.1 (of_crash_ok hn))
    simpa using this
  | ternary =>
    simp only [parseField] at h
    obtain ⟨⟨a, l⟩, ha, h⟩ := bind_ok h
    obtain ⟨b, hb, h⟩ := bind_ok h
    obtain ⟨n, hn, h⟩ := bind_ok h
    obtain ⟨-, -, h⟩ := bind_ok h
    cases h
    obtain ⟨v, h1, h2⟩ := value_sound hv hb
    obtain ⟨m, h3, h4⟩ := value_sound hv hn
    have e := pair_some (of_err_ok ha)
    subst e
    refine ⟨.ternary v m, ?_, fun h => ⟨h2 h.1, h4 h.2⟩⟩
    have := FieldText.ternary h1 h3
    simpa using this
  | valid =>
    simp only [parseField] at h
    obtain ⟨n, hn, h⟩ := bind_ok h
    cases h
    exact ⟨_, .valid (int10_iff.1 (of_crash_ok hn)), fun _ => rfl⟩
  | range =>
    simp only [parseField] at h
    obtain ⟨⟨a, l⟩, ha, h⟩ := bind_ok h
    obtain ⟨b, hb, h⟩ := bind_ok h
    obtain ⟨n, hn, h⟩ := bind_ok h
    obtain ⟨-, -, h⟩ := bind_ok h
    obtain ⟨-, -, h⟩ := bind_ok h
    cases h
    obtain ⟨v, h1, h2⟩ := value_sound hv hb
    obtain ⟨m, h3, h4⟩ := value_sound hv hn
    have e := pair_some (of_err_ok ha)
    subst e
    refine ⟨.range v m, ?_, fun h => ⟨h2 h.1, h4 h.2⟩⟩
    have := FieldText.range h1 h3
    simpa using this

theorem fits_value {v6 : V6} (hv : V6.Proper v6) {s : Text} {w : Nat} {v : Int} (h : Value v6 w s v) (hf : Fits w v) :
    ∃ bs, value v6 s w = .ok bs ∧ Holds w v bs := by
  refine value_complete hv h hf.1 (Int.lt_of_lt_of_le hf.2 ?_)
  exact_mod_cast pow_width w

/-- What `writeI32` needs. -/
def KeyOk (p : TParam) : Prop := ∀ b n, p = .lpm b n → Small n

theorem parseField_complete {v6 : V6} (hv : V6.Proper v6) {k : MType} {w : Nat} {s : Text} {f : Field}
    (h : FieldText v6 (k, w) s f) (hs : f.Sane w) : ∃ p, parseField v6 k w s = .ok p ∧ Carries w f p ∧ KeyOk p := by
  cases h with
  | exact h1 =>
    obtain ⟨b, e, hb⟩ := fits_value hv h1 hs
    exact ⟨.exact b, by simp [parseField, e], hb, by intro _ _ h; cases h⟩
  | lpm h1 h2 =>
    obtain ⟨b, e, hb⟩ := fits_value hv h1 hs.1
    refine ⟨.lpm b _, ?_, ⟨hb, rfl⟩, by intro _ _ h; cases h; exact hs.2⟩
    simp only [parseField, of_some (pair_slash (value_no hv h1).1 (dec_no (by decide) (by decide) (by decide) h2)), out_bind_ok,
      e, of_some (int10_iff.2 h2), out_pure]
  | ternary h1 h2 =>
    obtain ⟨b, e, hb⟩ := fits_value hv h1 hs.1
    obtain ⟨m, e', hm⟩ := fits_value hv h2 hs.2
    refine ⟨.ternary b m, ?_, ⟨hb, hm⟩, by intro _ _ h; cases h⟩
    simp only [parseField, of_some (pair_amp (value_no hv h1).2.1 (value_no hv h2).2.1), out_bind_ok,
      e, e', guard_pos (hm.1.trans hb.1.symm), out_pure]
  | valid h1 =>
    refine ⟨.valid _, ?_, rfl, by intro _ _ h; cases h⟩
    simp only [parseField, of_some (int10_iff.2 h1), out_bind_ok, out_pure]
  | range h1 h2 =>
    obtain ⟨b, e, hb⟩ := fits_value hv h1 hs.1
    obtain ⟨m, e', hm⟩ := fits_value hv h2 hs.2.1
    refine ⟨.range b m, ?_, ⟨hb, hm⟩, by intro _ _ h; cases h⟩
    have hl : lexLt m b = false := by
      rw [← Bool.not_eq_true, lexLt_iff (hm.1.trans hb.1.symm)]
      have h3 := hs.2.2
      rw [← hb.2, ← hm.2] at h3
      omega
    simp only [parseField, of_some (pair_arrow (value_no hv h1).2.2 (value_no hv h2).2.2), out_bind_ok,
      e, e', guard_pos (hb.1.trans hm.1.symm), guard_pos hl, out_pure]

theorem matchKey_sound {v6 : V6} (hv : V6.Proper v6) : ∀ {ks : List (MType × Nat)} {ss : List Text} {ps : List TParam},
    matchKey v6 ks ss = .ok ps → ss.length = ks.length →
    ∃ fs, List.Forall₂ (fun (x : (MType × Nat) × Text) f => FieldText v6 x.1 x.2 f) (ks.zip ss) fs ∧ ps.length = ks.length ∧
      ((∀ f ∈ fs, Field.Nonneg f) →
        List.Forall₂ (fun (x : (MType × Nat) × Field) p => Carries x.1.2 x.2 p) (ks.zip fs) ps)
  | [], [], ps, h, _ => by
    simp only [matchKey] at h
    cases h
    exact ⟨[], .nil, rfl, fun _ => .nil⟩
  | (k, w) :: ks, s :: ss, ps, h, hl => by
    simp only [matchKey] at h
    obtain ⟨p, hp, h⟩ := bind_ok h
    obtain ⟨ps', hps, h⟩ := bind_ok h
    cases h
    obtain ⟨f, h1, h2⟩ := parseField_sound hv hp
    obtain ⟨fs, h3, h4, h5⟩ := matchKey_sound hv hps (by simpa using hl)
    exact ⟨f :: fs, .cons h1 h3, by simp [h4], fun hn => .cons (h2 (hn f (by simp))) (h5 fun g hg => hn g (by simp [hg]))⟩
  | [], _ :: _, _, _, hl => by simp at hl
  | _ :: _, [], _, _, hl => by simp at hl

theorem matchKey_complete {v6 : V6} (hv : V6.Proper v6) : ∀ {ks : List (MType × Nat)} {ss : List Text} {fs : List Field},
    List.Forall₂ (fun (x : (MType × Nat) × Text) f => FieldText v6 x.1 x.2 f) (ks.zip ss) fs → ss.length = ks.length →
    (∀ x ∈ ks.zip fs, Field.Sane x.1.2 x.2) →
    ∃ ps, matchKey v6 ks ss = .ok ps ∧ ps.length = ks.length ∧
      List.Forall₂ (fun (x : (MType × Nat) × Field) p => Carries x.1.2 x.2 p) (ks.zip fs) ps ∧ ∀ p ∈ ps, KeyOk p
  | [], [], fs, h, _, _ => by
    cases h
    exact ⟨[], by simp [matchKey], rfl, .nil, by simp⟩
  | (k, w) :: ks, s :: ss, fs, h, hl, hs => by
    rw [List.zip_cons_cons] at h
    cases h with
    | cons h1 h2 =>
      next f fs =>
      obtain ⟨p, e, hp, ho⟩ := parseField_complete hv h1 (hs ((k, w), f) (by simp))
      obtain ⟨ps, e', hps, hc, hos⟩ := matchKey_complete hv h2 (by simpa using hl) fun x hx => hs x (by simp [hx])
      refine ⟨p :: ps, by simp [matchKey, e, e'], by simp [hps], .cons hp hc, ?_⟩
      intro x hx
      rcases List.mem_cons.1 hx with rfl | hx
      · exact ho
      · exact hos x hx
  | [], _ :: _, _, _, hl, _ => by simp at hl
  | _ :: _, [], _, _, hl, _ => by simp at hl

theorem runtimeData_sound {v6 : V6} (hv : V6.Proper v6) : ∀ {ws : List Nat} {ss : List Text} {bs : List Bytes},
    runtimeData v6 ws ss = .ok bs → ss.length = ws.length →
    ∃ vs, List.Forall₂ (fun (x : Nat × Text) v => Value v6 x.1 x.2 v) (ws.zip ss) vs ∧ bs.length = ws.length ∧
      ((∀ v ∈ vs, 0 ≤ v) → List.Forall₂ (fun (x : Nat × Int) b => Holds x.1 x.2 b) (ws.zip vs) bs)
  | [], [], bs, h, _ => by
    simp only [runtimeData] at h
    cases h
    exact ⟨[], .nil, rfl, fun _ => .nil⟩
  | w :: ws, s :: ss, bs, h, hl => by
    simp only [runtimeData] at h
    obtain ⟨p, hp, h⟩ := bind_ok h
    obtain ⟨ps', hps, h⟩ := bind_ok h
    cases h
    obtain ⟨f, h1, h2⟩ := value_sound hv hp
    obtain ⟨fs, h3, h4, h5⟩ := runtimeData_sound hv hps (by simpa using hl)
    exact ⟨f :: fs, .cons h1 h3, by simp [h4], fun hn => .cons (h2 (hn f (by simp))) (h5 fun g hg => hn g (by simp [hg]))⟩
  | [], _ :: _, _, _, hl => by simp at hl
  | _ :: _, [], _, _, hl => by simp at hl

theorem runtimeData_complete {v6 : V6} (hv : V6.Proper v6) : ∀ {ws : List Nat} {ss : List Text} {vs : List Int},
    List.Forall₂ (fun (x : Nat × Text) v => Value v6 x.1 x.2 v) (ws.zip ss) vs → ss.length = ws.length →
    (∀ x ∈ ws.zip vs, Fits x.1 x.2) →
    ∃ bs, runtimeData v6 ws ss = .ok bs ∧ bs.length = ws.length ∧
      List.Forall₂ (fun (x : Nat × Int) b => Holds x.1 x.2 b) (ws.zip vs) bs
  | [], [], fs, h, _, _ => by
    cases h
    exact ⟨[], by simp [runtimeData], rfl, .nil⟩
  | w :: ws, s :: ss, fs, h, hl, hs => by
    rw [List.zip_cons_cons] at h
    cases h with
    | cons h1 h2 =>
      next f fs =>
      obtain ⟨p, e, hp⟩ := fits_value hv h1 (hs (w, f) (by simp))
      obtain ⟨ps, e', hps, hc⟩ := runtimeData_complete hv h2 (by simpa using hl) fun x hx => hs x (by simp [hx])
      exact ⟨p :: ps, by simp [runtimeData, e, e'], by simp [hps], .cons hp hc⟩
  | [], _ :: _, _, _, hl, _ => by simp at hl
  | _ :: _, [], _, _, hl, _ => by simp at hl

/-! ## Names -/

theorem split_append' (sep : Char) : ∀ (p q : Text), split sep (p ++ sep :: q) = split sep p ++ split sep q
  | [], q => by simp [split]
  | c :: cs, q => by
    have ih := split_append' sep cs q
    rw [List.cons_append]
    simp only [split]
    split
    · rw [ih]; rfl
    · rw [ih]
      cases hs : split sep cs with
      | nil => exact absurd hs (split_ne sep cs)
      | cons t ts => rfl

theorem join_append {sep : Char} : ∀ {a b : List Text}, a ≠ [] → b ≠ [] → join sep (a ++ b) = join sep a ++ sep :: join sep b
  | [], _, h, _ => absurd rfl h
  | [t], [], _, h => absurd rfl h
  | [t], x :: b, _, _ => by simp [join]
  | t :: t' :: a, b, _, hb => by
    have := join_append (sep := sep) (a := t' :: a) (b := b) (by simp) hb
    simp only [List.cons_append, join] at this ⊢
    rw [this]
    simp

/-- The fold of `suffixes`. -/
def sfx (ts : List Text) : List Text := ts.foldr (fun s acc =>
    match acc.getLast? with
    | none => [s]
    | some t => acc ++ [s ++ '.' :: t]) []

theorem sfx_last : ∀ ts : List Text, (sfx ts).getLast? = if ts = [] then none else some (join '.' ts)
  | [] => rfl
  | t :: ts => by
    have ih := sfx_last ts
    show (match (sfx ts).getLast? with
      | none => [t]
      | some x => sfx ts ++ [t ++ '.' :: x]).getLast? = _
    rw [ih]
    cases ts with
    | nil => simp [join]
    | cons t' ts => simp [join]

theorem sfx_cons (t : Text) (ts : List Text) : sfx (t :: ts) = sfx ts ++ [join '.' (t :: ts)] := by
  have h := sfx_last ts
  show (match (sfx ts).getLast? with
    | none => [t]
    | some x => sfx ts ++ [t ++ '.' :: x]) = _
  rw [h]
  cases ts with
  | nil => simp [sfx, join]
  | cons t' ts => simp [join]

theorem sfx_mem {q : Text} : ∀ {ts : List Text}, q ∈ sfx ts ↔ ∃ a b, ts = a ++ b ∧ b ≠ [] ∧ q = join '.' b
  | [] => by simp [sfx]
  | t :: ts => by
    rw [sfx_cons, List.mem_append, sfx_mem, List.mem_singleton]
    constructor
    · rintro (⟨a, b, e, hb, hq⟩ | h)
      · exact ⟨t :: a, b, by simp [e], hb, hq⟩
      · exact ⟨[], t :: ts, rfl, by simp, h⟩
    · rintro ⟨a, b, e, hb, hq⟩
      cases a with
      | nil => right; rw [hq]; simp at e; rw [e]
      | cons x a => left; simp at e; exact ⟨a, b, e.2, hb, hq⟩

theorem sfx_short {q : Text} : ∀ {ts : List Text}, q ∈ sfx ts → q.length ≤ (join '.' ts).length := by
  intro ts h
  obtain ⟨a, b, rfl, hb, rfl⟩ := sfx_mem.1 h
  by_cases ha : a = []
  · simp [ha]
  · rw [join_append ha hb]; simp; omega

theorem sfx_nodup : ∀ ts : List Text, (sfx ts).Nodup
  | [] => by simp [sfx]
  | t :: ts => by
    rw [sfx_cons, List.nodup_append]
    refine ⟨sfx_nodup ts, by simp, ?_⟩
    intro a ha b hb e
    rw [List.mem_singleton] at hb
    subst hb
    subst e
    have h := sfx_short ha
    cases ts with
    | nil => simp [sfx] at ha
    | cons t' ts => simp [join] at h; omega

theorem suffixes_eq (n : Text) : suffixes n = sfx (split '.' n) := rfl

theorem suffixes_mem {q n : Text} : q ∈ suffixes n ↔ Suffix q n := by
  rw [suffixes_eq, sfx_mem]
  constructor
  · rintro ⟨a, b, e, hb, rfl⟩
    have hn := join_split '.' n
    rw [e] at hn
    by_cases ha : a = []
    · left; rw [ha] at hn; simpa using hn
    · right; exact ⟨join '.' a, by rw [← hn, join_append ha hb]⟩
  · rintro (rfl | ⟨p, rfl⟩)
    · exact ⟨[], _, rfl, split_ne _ _, (join_split _ _).symm⟩
    · exact ⟨_, _, split_append' _ _ _, split_ne _ _, (join_split _ _).symm⟩

instance (q n : Text) : Decidable (Suffix q n) := decidable_of_iff _ suffixes_mem

theorem filter_one {q : Text} {n : String} : ∀ {l : List Text}, l.Nodup →
    ((l.map fun s => (s, n)).filter fun x => x.1 = q) = if q ∈ l then [(q, n)] else []
  | [], _ => by simp
  | t :: l, h => by
    have h1 := (List.nodup_cons.1 h).1
    have ih := filter_one (q := q) (n := n) (List.nodup_cons.1 h).2
    rw [List.map_cons, List.filter_cons, ih]
    by_cases e : t = q
    · subst e; simp [h1]
    · simp [e, Ne.symm e]

theorem lookup_filter (all : List String) (q : Text) :
    ((all.flatMap fun n => (suffixes n.toList).map fun s => (s, n)).filter fun x => x.1 = q) =
      (all.filter fun n => Suffix q n.toList).map fun n => (q, n) := by
  induction all with
  | nil => rfl
  | cons n all ih =>
    rw [List.flatMap_cons, List.filter_append, ih, suffixes_eq, filter_one (sfx_nodup _), List.filter_cons]
    by_cases h : Suffix q n.toList
    · have h' : q ∈ sfx (split '.' n.toList) := suffixes_mem.2 h
      simp [h, h']
    · have h' : ¬ q ∈ sfx (split '.' n.toList) := fun e => h (suffixes_mem.1 e)
      simp [h, h']

theorem lookup_iff {all : List String} (hn : all.Nodup) {q : Text} {n : String} :
    lookup all q = some n ↔ Names all q n := by
  have h1 : lookup all q = some n ↔ all.filter (fun n => Suffix q n.toList) = [n] := by
    unfold lookup
    rw [lookup_filter]
    cases all.filter fun n => Suffix q n.toList with
    | nil => simp
    | cons a l => cases l <;> simp
  rw [h1]
  constructor
  · intro h
    have hm : ∀ m, m ∈ all ∧ Suffix q m.toList ↔ m = n := by
      intro m
      have : m ∈ all.filter (fun n => decide (Suffix q n.toList)) ↔ m = n := by rw [h]; simp
      rw [← this, List.mem_filter]
      simp
    obtain ⟨a, b⟩ := (hm n).2 rfl
    exact ⟨a, b, fun m h1 h2 => (hm m).1 ⟨h1, h2⟩⟩
  · rintro ⟨a, b, c⟩
    have hd := hn.filter (fun n => decide (Suffix q n.toList))
    have hm : n ∈ all.filter (fun n => decide (Suffix q n.toList)) := by rw [List.mem_filter]; simp [a, b]
    have ha : ∀ m ∈ all.filter (fun n => decide (Suffix q n.toList)), m = n := by
      intro m h
      rw [List.mem_filter] at h
      exact c m h.1 (by simpa using h.2)
    revert hd hm ha
    cases all.filter (fun n => decide (Suffix q n.toList)) with
    | nil => simp
    | cons x l =>
      intro hd hm ha
      have hx := ha x (by simp)
      subst hx
      cases l with
      | nil => rfl
      | cons y l =>
        have hy := ha y (by simp)
        subst hy
        simp at hd

theorem find_name {α : Type} {f : α → String} : ∀ {l : List α}, (l.map f).Nodup → ∀ {n : String} {x : α},
    l.find? (fun y => f y = n) = some x ↔ x ∈ l ∧ f x = n
  | [], _, n, x => by simp
  | y :: l, h, n, x => by
    rw [List.map_cons, List.nodup_cons] at h
    rw [List.find?_cons]
    by_cases e : f y = n
    · simp only [e, decide_true, Option.some.injEq, List.mem_cons]
      constructor
      · rintro rfl; exact ⟨.inl rfl, e⟩
      · rintro ⟨h1 | h1, h2⟩
        · exact h1.symm
        · exact absurd (by rw [e, ← h2]; exact List.mem_map_of_mem h1) h.1
    · simp only [e, decide_false, List.mem_cons]
      rw [find_name h.2]
      constructor
      · rintro ⟨h1, h2⟩; exact ⟨.inr h1, h2⟩
      · rintro ⟨h1 | h1, h2⟩
        · subst h1; exact absurd h2 e
        · exact ⟨h1, h2⟩

theorem of_err_iff {α : Type} {x : Option α} {a : α} : Out.of .err x = .ok a ↔ x = some a :=
  ⟨of_err_ok, of_some⟩

theorem getTab_iff {cfg : Cfg} (hc : Cfg.WF cfg) {q : Text} {T : TabD} : getTab cfg q = .ok T ↔ NamesTab cfg q T := by
  unfold getTab NamesTab
  rw [of_err_iff, Option.bind_eq_some_iff]
  constructor
  · rintro ⟨n, h1, h2⟩
    obtain ⟨h3, rfl⟩ := (find_name hc.tabs).1 h2
    exact ⟨h3, (lookup_iff hc.tabs).1 h1⟩
  · rintro ⟨h1, h2⟩
    exact ⟨_, (lookup_iff hc.tabs).2 h2, (find_name hc.tabs).2 ⟨h1, rfl⟩⟩

theorem getAct_iff {cfg : Cfg} (hc : Cfg.WF cfg) {T : TabD} {q : Text} {A : ActD} : getAct cfg T q = .ok A ↔ NamesAct cfg T q A := by
  unfold getAct NamesAct
  rw [of_err_iff, Option.bind_eq_some_iff]
  constructor
  · rintro ⟨n, h1, h2⟩
    obtain ⟨B, h3, h4⟩ := Option.bind_eq_some_iff.1 h2
    split at h4
    · cases h4
      obtain ⟨h4, rfl⟩ := (find_name hc.acts).1 h3
      exact ⟨h4, (lookup_iff hc.acts).1 h1, by assumption⟩
    · cases h4
  · rintro ⟨h1, h2, h3⟩
    exact ⟨_, (lookup_iff hc.acts).2 h2, Option.bind_eq_some_iff.2 ⟨A, (find_name hc.acts).2 ⟨h1, rfl⟩, if_pos h3⟩⟩

/-! ## Commands -/

theorem value_ne_arrow {v6 : V6} {w : Nat} {t : Text} {v : Int} (h : Value v6 w t v) : t ≠ arrow := by
  intro e
  have hm : '=' ∈ t := by rw [e]; simp [arrow]
  cases h with
  | num hn => exact lit_no (by decide) (by decide) (by decide) hn hm
  | ipv4 _ hp =>
    rcases mem_join hm with h | ⟨t, ht, h⟩
    · exact absurd h (by decide)
    · exact forall2_left (P := fun t => '=' ∉ t) (fun a b h => dec_no (by decide) (by decide) (by decide) h.1) hp t ht h
  | mac _ hp =>
    rcases mem_join hm with h | ⟨t, ht, h⟩
    · exact absurd h (by decide)
    · exact forall2_left (P := fun t => '=' ∉ t) (fun a b h => hex_no (by decide) (by decide) (by decide) h.1) hp t ht h
  | ipv6 hd _ => rw [e] at hd; exact absurd hd (by decide)

theorem field_ne_arrow {v6 : V6} {x : MType × Nat} {t : Text} {f : Field} (h : FieldText v6 x t f) : t ≠ arrow := by
  cases h with
  | exact h => exact value_ne_arrow h
  | lpm _ _ =>
    intro e
    have : '/' ∈ arrow := by rw [← e]; simp
    exact absurd this (by decide)
  | ternary _ _ =>
    intro e
    have : '&' ∈ arrow := by rw [← e]; simp
    exact absurd this (by decide)
  | valid h =>
    intro e
    have : '=' ∈ t := by rw [e]; simp [arrow]
    exact dec_no (by decide) (by decide) (by decide) h this
  | range _ _ =>
    intro e
    have : '-' ∈ arrow := by rw [← e]; simp
    exact absurd this (by decide)

theorem zip_all {α β γ : Type} {R : α × β → γ → Prop} {P : β → Prop} (hp : ∀ x c, R x c → P x.2) :
    ∀ {l : List α} {m : List β} {r : List γ}, List.Forall₂ R (l.zip m) r → m.length = l.length → ∀ b ∈ m, P b
  | [], [], _, _, _ => by simp
  | a :: l, b :: m, _, h, hl => by
    rw [List.zip_cons_cons] at h
    cases h with
    | cons h1 h2 =>
      intro x hx
      rcases List.mem_cons.1 hx with rfl | hx
      · exact hp _ _ h1
      · exact zip_all hp h2 (by simpa using hl) x hx
  | [], _ :: _, _, _, hl => by simp at hl
  | _ :: _, [], _, _, hl => by simp at hl

theorem arrowIdx_of : ∀ {ks ps : List Text}, arrow ∉ ks → arrowIdx (ks ++ arrow :: ps) = some ks.length
  | [], [], _ => by simp [arrowIdx]
  | [], p :: ps, _ => by simp [arrowIdx]
  | k :: ks, ps, h => by
    have h1 : k ≠ arrow := fun e => h (by simp [e])
    have ih := arrowIdx_of (ks := ks) (ps := ps) fun e => h (by simp [e])
    cases hx : ks ++ arrow :: ps with
    | nil => simp at hx
    | cons x xs =>
      rw [hx] at ih
      rw [List.cons_append, hx]
      simp [arrowIdx, h1, ih]

theorem first_mem {x : Text} : ∀ {l : List Text}, x ∈ l → ∃ a b, l = a ++ x :: b ∧ x ∉ a
  | y :: l, h => by
    by_cases e : y = x
    · exact ⟨[], l, by simp [e], by simp⟩
    · have hm : x ∈ l := by
        rcases List.mem_cons.1 h with h | h
        · exact absurd h.symm e
        · exact h
      obtain ⟨a, b, rfl, ha⟩ := first_mem hm
      exact ⟨y :: a, b, rfl, by simp [ha, Ne.symm e]⟩

theorem arrowIdx_mem {l : List Text} (h : arrow ∈ l) {i : Nat} (hi : arrowIdx l = some i) :
    l = l.take i ++ arrow :: l.drop (i + 1) := by
  obtain ⟨a, b, rfl, ha⟩ := first_mem h
  rw [arrowIdx_of ha] at hi
  cases hi
  simp [List.drop_append]

theorem add_args {l args pt : List Text} {i : Nat} (e : args = l ++ pt) (h0 : 3 ≤ args.length)
    (hi : arrowIdx (l.drop 2) = some i) (ha : arrow ∈ args.drop 2) (hp : arrow ∉ pt) :
    args = args.getD 0 [] :: args.getD 1 [] :: ((l.drop 2).take i ++ arrow :: (l.drop (i + 3) ++ pt)) := by
  match l, hi with
  | q :: a :: l, hi =>
    subst e
    simp only [List.cons_append, List.drop_succ_cons, List.drop_zero] at hi ha
    have hm : arrow ∈ l := (List.mem_append.1 ha).resolve_right hp
    have := arrowIdx_mem hm hi
    simp only [List.cons_append, List.getD_cons_zero, List.getD_cons_succ, List.drop_succ_cons, List.drop_zero]
    conv => lhs; rw [this]
    simp
  | [], hi => simp [arrowIdx] at hi
  | [_], hi => simp [arrowIdx] at hi

theorem i32_of {n : Int} (h : Small n) : i32 n = .ok () := if_pos h

theorem i32_ok {n : Int} {u : Unit} (h : i32 n = .ok u) : -2 ^ 31 ≤ n ∧ n < 2 ^ 31 := guard_ok (by simp) h

theorem i32Key_of {ps : List TParam} (h : ∀ p ∈ ps, KeyOk p) : i32Key ps = .ok () := by
  apply guard_pos
  rw [List.all_eq_true]
  intro p hp
  cases p with
  | lpm b n => exact decide_eq_true (h _ hp b n rfl)
  | _ => rfl

theorem popPrio_of {T : TabD} {l pr : List Text} {n : Int} (h : PrioText T pr n) : popPrio T (l ++ pr) = .ok (l, n) := by
  cases h with
  | some h1 h2 => simp [popPrio, h1, of_some (int10_iff.2 h2)]
  | none h1 => simp [popPrio, h1]

theorem popPrio_ok {T : TabD} {l l' : List Text} {n : Int} (h : popPrio T l = .ok (l', n)) :
    ∃ pr, l = l' ++ pr ∧ PrioText T pr n := by
  unfold popPrio at h
  split at h
  · next hp =>
    split at h
    · cases h
    · next t ht =>
      obtain ⟨m, hm, h⟩ := bind_ok h
      cases h
      refine ⟨[t], ?_, .some hp (int10_iff.1 (of_err_ok hm))⟩
      rw [List.getLast?_eq_some_iff] at ht
      obtain ⟨ys, rfl⟩ := ht
      simp
  · next hp =>
    cases h
    exact ⟨[], by simp, .none (by simpa using hp)⟩

theorem data_of {v6 : V6} (hv : V6.Proper v6) {A : ActD} {ps : List Text} {vs : List Int} (h : DataText v6 A ps vs)
    (hs : SaneData A vs) : ∃ bs, checkedData v6 A ps = .ok bs ∧ CarriesData A vs bs := by
  obtain ⟨bs, e, h1, h2⟩ := runtimeData_complete hv h.1 h.2 hs
  exact ⟨bs, by simp only [checkedData, guard_pos h.2, out_bind_ok, e], h1, h2⟩

theorem data_ok {v6 : V6} (hv : V6.Proper v6) {A : ActD} {ps : List Text} {bs : List Bytes} (h : checkedData v6 A ps = .ok bs) :
    ∃ vs, DataText v6 A ps vs ∧ ((∀ v ∈ vs, 0 ≤ v) → CarriesData A vs bs) := by
  obtain ⟨u, h1, h⟩ := bind_ok h
  have hl := guard_ok (by simp) h1
  obtain ⟨vs, h2, h3, h4⟩ := runtimeData_sound hv h hl
  exact ⟨vs, ⟨h2, hl⟩, fun hn => ⟨h3, h4 hn⟩⟩

/-- Commands that say something sensible are sent. -/
theorem command_complete {v6 : V6} (hv : V6.Proper v6) {cfg : Cfg} (hc : Cfg.WF cfg) (now : Nat) {cmd : String} {args : List Text}
    {T : TabD} {ask : Ask} (h : Says v6 cfg cmd args T ask) (hs : ask.Sane T) (hm : cmd = "table_modify" → 4 ≤ args.length) :
    ∃ call, command v6 cfg now cmd args = .ok (T.name, call) ∧ Asks T ask call := by
  cases h with
  | @add q a _ A ks fs ps vs pr n ht ha hk hd hp =>
    obtain ⟨s1, s2, s3⟩ := hs
    obtain ⟨key, e1, k1, k2, k3⟩ := matchKey_complete hv hk.1 hk.2 s1
    obtain ⟨data, e2, d1⟩ := data_of hv hd s2
    have harr : arrow ∉ ks := fun e =>
      zip_all (P := fun t => t ≠ arrow) (fun _ _ h => field_ne_arrow h) hk.1 hk.2 arrow e rfl
    have hpop : popPrio T (q :: a :: (ks ++ arrow :: (ps ++ pr))) = .ok (q :: a :: (ks ++ arrow :: ps), n) := by
      have := popPrio_of (l := q :: a :: (ks ++ arrow :: ps)) hp
      simpa using this
    refine ⟨.add key A.name data n now, ?_, ⟨k1, k2⟩, rfl, d1, rfl⟩
    have e3 : (q :: a :: (ks ++ arrow :: ps)).drop (ks.length + 3) = ps := by
      simp [List.drop_append]
    have e4 : (ks ++ arrow :: ps).take ks.length = ks := by simp
    have hlen : 3 ≤ (q :: a :: (ks ++ arrow :: (ps ++ pr))).length := by simp; omega
    simp only [command, ↓reduceIte, tableAdd, guard_pos hlen, out_bind_ok, List.getD_cons_zero, List.getD_cons_succ,
      (getTab_iff hc).2 ht, (getAct_iff hc).2 ha, hpop, List.drop_succ_cons, List.drop_zero, of_some (arrowIdx_of harr), e3, e4,
      guard_pos hk.2, e1, e2, i32Key_of k3, i32_of s3, out_pure]
    have e3' : (ks ++ arrow :: ps).drop (ks.length + 1) = ps := by simp [List.drop_append]
    simp only [e3', e2, out_bind_ok]
  | setDefault ht ha hd =>
    obtain ⟨data, e2, d1⟩ := data_of hv hd hs
    refine ⟨.setDefault _ data, ?_, rfl, d1⟩
    simp [command, setDefault, Out.guard, (getTab_iff hc).2 ht, (getAct_iff hc).2 ha, e2]
  | resetDefault ht =>
    exact ⟨.resetDefault, by simp [command, withTable, Out.guard, (getTab_iff hc).2 ht], trivial⟩
  | @modify q a _ A h n ps vs ht ha hh hd =>
    obtain ⟨data, e2, d1⟩ := data_of hv hd hs.2
    refine ⟨.modify (toHandle n) A.name data, ?_, rfl, rfl, d1⟩
    cases ps with
    | nil => simp at hm
    | cons p ps =>
      have hne : p ≠ arrow :=
        zip_all (P := fun t => t ≠ arrow) (fun _ _ h => value_ne_arrow h) hd.1 hd.2 p (by simp)
      simp [command, Cli.modify, Out.guard, (getTab_iff hc).2 ht, (getAct_iff hc).2 ha, of_some (int10_iff.2 hh), e2, hne,
        Out.of, i32_of hs.1]
      rw [int10_iff.2 hh]
      simp [i32_of hs.1]
  | @modify' q a _ A h n ps vs ht ha hh hd =>
    obtain ⟨data, e2, d1⟩ := data_of hv hd hs.2
    refine ⟨.modify (toHandle n) A.name data, ?_, rfl, rfl, d1⟩
    simp [command, Cli.modify, Out.guard, (getTab_iff hc).2 ht, (getAct_iff hc).2 ha, int10_iff.2 hh, e2, Out.of, i32_of hs.1]
  | delete ht hh =>
    exact ⟨.delete (toHandle _), by
      simp [command, withHandle, Out.guard, (getTab_iff hc).2 ht, int10_iff.2 hh, Out.of, i32_of hs], rfl⟩
  | «show» ht hh =>
    exact ⟨.get (toHandle _), by
      simp [command, withHandle, Out.guard, (getTab_iff hc).2 ht, int10_iff.2 hh, Out.of, i32_of hs], rfl⟩
  | @find q _ ks fs pr n ht hk hp =>
    obtain ⟨s1, s3⟩ := hs
    obtain ⟨key, e1, k1, k2, k3⟩ := matchKey_complete hv hk.1 hk.2 s1
    have hpop : popPrio T (q :: (ks ++ pr)) = .ok (q :: ks, n) := popPrio_of (l := q :: ks) hp
    refine ⟨.getByKey key n, ?_, ⟨k1, k2⟩, rfl⟩
    simp [command, fromKey, Out.guard, (getTab_iff hc).2 ht, hpop, hk.2, e1, i32Key_of k3, i32_of s3]
  | clear ht =>
    exact ⟨.clear false, by simp [command, withTable, Out.guard, (getTab_iff hc).2 ht], rfl⟩
  | count ht =>
    exact ⟨.count, by simp [command, withTable, Out.guard, (getTab_iff hc).2 ht], trivial⟩

theorem key_ok {v6 : V6} (hv : V6.Proper v6) {T : TabD} {ks : List Text} {ps : List TParam} (h : matchKey v6 T.key ks = .ok ps)
    (hl : ks.length = T.key.length) : ∃ fs, KeyText v6 T ks fs ∧ ((∀ f ∈ fs, Field.Nonneg f) → CarriesKey T fs ps) := by
  obtain ⟨fs, h1, h2, h3⟩ := matchKey_sound hv h hl
  exact ⟨fs, ⟨h1, hl⟩, fun hn => ⟨h2, h3 hn⟩⟩

/-- What is sent is what the command says. -/
theorem command_sound {v6 : V6} (hv : V6.Proper v6) {cfg : Cfg} (hc : Cfg.WF cfg) {now : Nat} {cmd : String} {args : List Text}
    {n : String} {call : Call} (h : command v6 cfg now cmd args = .ok (n, call))
    (ha : cmd = "table_add" → arrow ∈ args.drop 2) :
    ∃ T ask, Says v6 cfg cmd args T ask ∧ n = T.name ∧ (ask.Nonneg → Asks T ask call) := by
  unfold command at h
  split at h
  · next e =>
    subst e
    have ha := ha rfl
    unfold tableAdd at h
    obtain ⟨_, h0, h⟩ := bind_ok h
    have h0 := guard_ok (by simp) h0
    obtain ⟨T, hT, h⟩ := bind_ok h
    obtain ⟨A, hA, h⟩ := bind_ok h
    obtain ⟨⟨l, pr⟩, hp, h⟩ := bind_ok h
    obtain ⟨idx, hi, h⟩ := bind_ok h
    obtain ⟨_, h1, h⟩ := bind_ok h
    have h1 := guard_ok (by simp) h1
    obtain ⟨data, hd, h⟩ := bind_ok h
    obtain ⟨key, hk, h⟩ := bind_ok h
    obtain ⟨_, -, h⟩ := bind_ok h
    obtain ⟨_, -, h⟩ := bind_ok h
    cases h
    obtain ⟨pt, e, hpt⟩ := popPrio_ok hp
    have hi := of_crash_ok hi
    obtain ⟨vs, d1, d2⟩ := data_ok hv hd
    obtain ⟨fs, k1, k2⟩ := key_ok hv hk h1
    have hnp : arrow ∉ pt := by
      intro hin
      cases hpt with
      | some _ hn =>
        rw [List.mem_singleton] at hin
        exact dec_no (x := '=') (by decide) (by decide) (by decide) hn (by rw [← hin]; simp [arrow])
      | none _ => exact absurd hin List.not_mem_nil
    have := Says.add ((getTab_iff hc).1 hT) ((getAct_iff hc).1 hA) k1 d1 hpt
    rw [← add_args e h0 hi ha hnp] at this
    exact ⟨T, _, this, rfl, fun hn => ⟨k2 hn.1, rfl, d2 hn.2, rfl⟩⟩
  split at h
  · next e =>
    subst e
    unfold setDefault at h
    obtain ⟨_, h0, h⟩ := bind_ok h
    have h0 := guard_ok (by simp) h0
    obtain ⟨T, hT, h⟩ := bind_ok h
    obtain ⟨A, hA, h⟩ := bind_ok h
    obtain ⟨data, hd, h⟩ := bind_ok h
    cases h
    obtain ⟨vs, d1, d2⟩ := data_ok hv hd
    match args, h0, hT, hA, d1 with
    | q :: a :: args, h0, hT, hA, d1 =>
      exact ⟨T, _, .setDefault ((getTab_iff hc).1 hT) ((getAct_iff hc).1 hA) d1, rfl, fun hn => ⟨rfl, d2 hn⟩⟩
    | [], h0, _, _, _ => simp at h0
    | [_], h0, _, _, _ => simp at h0
  split at h
  · next e =>
    subst e
    unfold withTable at h
    obtain ⟨_, h0, h⟩ := bind_ok h
    have h0 := guard_ok (by simp) h0
    obtain ⟨T, hT, h⟩ := bind_ok h
    cases h
    match args, h0, hT with
    | [q], h0, hT => exact ⟨T, _, .resetDefault ((getTab_iff hc).1 hT), rfl, fun _ => trivial⟩
  split at h
  · next e =>
    subst e
    unfold modify at h
    obtain ⟨_, h0, h⟩ := bind_ok h
    have h0 := guard_ok (by simp) h0
    obtain ⟨T, hT, h⟩ := bind_ok h
    obtain ⟨A, hA, h⟩ := bind_ok h
    obtain ⟨m, hm, h⟩ := bind_ok h
    obtain ⟨x, hx, h⟩ := bind_ok h
    obtain ⟨data, hd, h⟩ := bind_ok h
    obtain ⟨_, -, h⟩ := bind_ok h
    cases h
    obtain ⟨vs, d1, d2⟩ := data_ok hv hd
    have hm := int10_iff.1 (of_err_ok hm)
    have hx := of_crash_ok hx
    match args, h0, hT, hA, hm, hx, d1 with
    | q :: a :: t :: y :: args, h0, hT, hA, hm, hx, d1 =>
      have : y = x := by simpa using hx
      subst this
      split at d1
      · next e =>
        subst e
        exact ⟨T, _, .modify' ((getTab_iff hc).1 hT) ((getAct_iff hc).1 hA) hm d1, rfl, fun hn => ⟨rfl, rfl, d2 hn⟩⟩
      · exact ⟨T, _, .modify ((getTab_iff hc).1 hT) ((getAct_iff hc).1 hA) hm d1, rfl, fun hn => ⟨rfl, rfl, d2 hn⟩⟩
    | [], _, _, _, _, hx, _ => simp at hx
    | [_], _, _, _, _, hx, _ => simp at hx
    | [_, _], _, _, _, _, hx, _ => simp at hx
    | [_, _, _], _, _, _, _, hx, _ => simp at hx
  split at h
  · next e =>
    subst e
    unfold withHandle at h
    obtain ⟨_, h0, h⟩ := bind_ok h
    have h0 := guard_ok (by simp) h0
    obtain ⟨T, hT, h⟩ := bind_ok h
    obtain ⟨m, hm, h⟩ := bind_ok h
    obtain ⟨_, -, h⟩ := bind_ok h
    cases h
    have hm := int10_iff.1 (of_err_ok hm)
    match args, h0, hT, hm with
    | [q, t], h0, hT, hm => exact ⟨T, _, .delete ((getTab_iff hc).1 hT) hm, rfl, fun _ => rfl⟩
  split at h
  · next e =>
    subst e
    unfold withHandle at h
    obtain ⟨_, h0, h⟩ := bind_ok h
    have h0 := guard_ok (by simp) h0
    obtain ⟨T, hT, h⟩ := bind_ok h
    obtain ⟨m, hm, h⟩ := bind_ok h
    obtain ⟨_, -, h⟩ := bind_ok h
    cases h
    have hm := int10_iff.1 (of_err_ok hm)
    match args, h0, hT, hm with
    | [q, t], h0, hT, hm => exact ⟨T, _, .show ((getTab_iff hc).1 hT) hm, rfl, fun _ => rfl⟩
  split at h
  · next e =>
    subst e
    unfold fromKey at h
    obtain ⟨_, h0, h⟩ := bind_ok h
    have h0 := guard_ok (by simp) h0
    obtain ⟨T, hT, h⟩ := bind_ok h
    obtain ⟨⟨l, pr⟩, hp, h⟩ := bind_ok h
    obtain ⟨_, h1, h⟩ := bind_ok h
    have h1 := guard_ok (by simp) h1
    obtain ⟨key, hk, h⟩ := bind_ok h
    obtain ⟨_, -, h⟩ := bind_ok h
    obtain ⟨_, -, h⟩ := bind_ok h
    cases h
    obtain ⟨pt, e, hpt⟩ := popPrio_ok hp
    obtain ⟨fs, k1, k2⟩ := key_ok hv hk h1
    have hN := (getTab_iff hc).1 hT
    match l, args, h0, hT, e, h1, k1 with
    | q :: l, q' :: args, h0, hT, e, h1, k1 =>
      simp only [List.cons_append, List.cons.injEq] at e
      obtain ⟨rfl, rfl⟩ := e
      exact ⟨T, _, .find hN k1 hpt, rfl, fun hn => ⟨k2 hn, rfl⟩⟩
    | [], args, h0, _, e, h1, _ =>
      exfalso
      cases hpt with
      | some hpr _ =>
        exact hc.prio T hN.1 hpr (List.eq_nil_of_length_eq_zero (by simpa using h1.symm))
      | none _ => rw [e] at h0; simp at h0
    | _ :: _, [], h0, _, _, _, _ => simp at h0
  split at h
  · next e =>
    subst e
    unfold withTable at h
    obtain ⟨_, h0, h⟩ := bind_ok h
    have h0 := guard_ok (by simp) h0
    obtain ⟨T, hT, h⟩ := bind_ok h
    cases h
    match args, h0, hT with
    | [q], h0, hT => exact ⟨T, _, .clear ((getTab_iff hc).1 hT), rfl, fun _ => rfl⟩
  split at h
  · next e =>
    subst e
    unfold withTable at h
    obtain ⟨_, h0, h⟩ := bind_ok h
    have h0 := guard_ok (by simp) h0
    obtain ⟨T, hT, h⟩ := bind_ok h
    cases h
    match args, h0, hT with
    | [q], h0, hT => exact ⟨T, _, .count ((getTab_iff hc).1 hT), rfl, fun _ => trivial⟩
  · cases h

end Bm.Cli
