import Verif.Lemmas.TargetOpts

/-!
# C117: the options of the target

Full statement: options can be registered once; for arguments that are right every option has the value written, and can be read only
with its type; `simple_switch` starts exactly when the arguments are right and the numbers make sense (limits from 1 to 2^31 - 1, at least
one queue), with the values given and the defaults for the rest, and with the modules named.

Proved for arguments in which all options are known, none is given twice and no number has a minus (`C117_partial`); the rest is false
(`C117_refuted_…`).
-/

namespace Bm.TargetOpts

open Spec Bm.Options
open Bm.Options.Spec (IsDec)

/-- Registering: refused exactly for a name registered before; afterwards the option is there and all others are as before. -/
theorem C117_add (o : Opts) (hd : Distinct o) (ty : Ty) (n : Str) :
    ((∃ t, (n, t) ∈ o) → add o ty n = .error .duplicate) ∧
    ((∀ t, (n, t) ∉ o) → ∃ o', add o ty n = .ok o' ∧ Distinct o' ∧ ∀ m t, (m, t) ∈ o' ↔ (m, t) ∈ o ∨ m = n ∧ t = ty) := by
  unfold add
  constructor
  · rintro ⟨t, ht⟩
    rw [if_pos (by rw [(lookup_mem hd).2 ht]; rfl)]
  · intro h
    rw [if_neg (by rw [lookup_none.2 h]; simp)]
    refine ⟨_, rfl, ?_, fun m t => by simp⟩
    unfold Distinct
    rw [List.map_append, List.nodup_append]
    refine ⟨hd, by simp, ?_⟩
    intro a ha b hb e
    simp only [List.map_cons, List.map_nil, List.mem_singleton] at hb
    rw [e, hb] at ha
    obtain ⟨⟨x, t⟩, hx, hxe⟩ := List.mem_map.1 ha
    subst hxe; exact h t hx

example : add [(['a'], .int)] .uint ['a'] = .error .duplicate ∧
    add [(['a'], .int)] .uint ['b'] = .ok [(['a'], .int), (['b'], .uint)] := by decide

theorem conv_right {o : Opts} (hd : Distinct o) {ts : List Tok} (h : Right o ts) {n : Str} {v : Option Str} {ty : Ty}
    (hv : .named n v ∈ ts) (ht : (n, ty) ∈ o) : ∃ x, conv ty v = some x := by
  by_cases hf : ty = .flag
  · obtain ⟨ty', ht', hn⟩ := h.splits.2 n v hv
    have := ty_unique hd ht ht'
    exact ⟨_, hf ▸ conv_flag (hn.1 (this ▸ hf))⟩
  · obtain ⟨x, hx⟩ := h.values n v ty hv ht hf
    exact ⟨x, conv_means hx⟩

/-- For arguments that are right: each option has the value written and is read with its own type only; options not given and names not
registered are told apart; flags tell whether they are given. -/
theorem C117_get (o : Opts) (hd : Distinct o) (ts : List Tok) (h : Right o ts) :
    ∃ vm, parse o ts = (0, vm) ∧
      (∀ n ty, (∀ t, (n, t) ∉ o) → get o vm ty n = .error .invalidName ∧ getFlag o vm n = .error .invalidName) ∧
      (∀ n t ty, (n, t) ∈ o → (∀ v, .named n v ∉ ts) → get o vm ty n = .error .notProvided ∧ getFlag o vm n = .ok false) ∧
      (∀ n t v x, (n, t) ∈ o → .named n v ∈ ts → Means t v x →
        get o vm t n = .ok x ∧ ∀ ty, ty ≠ t → get o vm ty n = .error .invalidType) ∧
      (∀ n t v, (n, t) ∈ o → .named n v ∈ ts → getFlag o vm n = .ok true) := by
  obtain ⟨vm, e, hl⟩ := parse_ok hd h.splits h.once (fun n v ty hv ht => conv_right hd h hv ht)
  refine ⟨vm, e, ?_, ?_, ?_, ?_⟩
  · intro n ty hn
    have : o.lookup n = none := lookup_none.2 hn
    simp [get, getFlag, this]
  · intro n t ty ht hv
    simp [get, getFlag, (lookup_mem hd).2 ht, (hl n).2 hv]
  · intro n t v x ht hv hx
    have e2 := (hl n).1 v t x hv ht (conv_means hx)
    have : ∀ ty, get o vm ty n = if x.is ty then .ok x else .error .invalidType := by
      intro ty; simp [get, (lookup_mem hd).2 ht, e2]
    refine ⟨?_, fun ty hne => ?_⟩
    · rw [this, if_pos]
      cases hx <;> rfl
    · rw [this, if_neg]
      cases hx <;> cases ty <;> simp_all [Val.is]
  · intro n t v ht hv
    obtain ⟨x, hx⟩ := conv_right hd h hv ht
    simp [getFlag, (lookup_mem hd).2 ht, (hl n).1 v t x hv ht hx]

/-- The modules named. -/
inductive Modules (ts : List Tok) : List Str → Prop
  | given (t : Str) (ms : List Str) (h : .named "load-modules".toList (some t) ∈ ts) (hw : Words t ms) : Modules ts ms
  | default (h : ∀ v, .named "load-modules".toList v ∉ ts) : Modules ts []

theorem value_of_splits {ts : List Tok} (hs : Splits switchOpts ts) {n : Str} {ty : Ty} (ht : (n, ty) ∈ switchOpts) (hf : ty ≠ .flag)
    {v : Option Str} (hv : .named n v ∈ ts) : ∃ t, v = some t := by
  obtain ⟨ty', ht', hn⟩ := hs.2 n v hv
  have := ty_unique switch_distinct ht ht'
  subst this
  cases v with
  | none => exact absurd (hn.2 rfl) hf
  | some t => exact ⟨t, rfl⟩

theorem uintOr_iff {ts : List Tok} {vm : Vm} (hs : Splits switchOpts ts) {name : String} (hk : (name.toList, Ty.uint) ∈ switchOpts)
    (hr : Right switchOpts ts)
    (hl : ∀ n, (∀ v ty x, .named n v ∈ ts → (n, ty) ∈ switchOpts → conv ty v = some x → vm.lookup n = some x) ∧
      ((∀ v, .named n v ∉ ts) → vm.lookup n = none)) (d n : Nat) :
    uintOr vm name.toList d = some n ↔ Setting ts name d n := by
  have hlk := (lookup_mem switch_distinct).2 hk
  by_cases hg : ∃ v, .named name.toList v ∈ ts
  · obtain ⟨v, hv⟩ := hg
    obtain ⟨t, rfl⟩ := value_of_splits hs hk (by simp) hv
    have key : ∀ m, Means .uint (some t) (.uint m) → uintOr vm name.toList d = some m := by
      intro m hm
      have := (hl _).1 _ _ _ hv hk (conv_means hm)
      simp [uintOr, get, hlk, this, Val.is]
    constructor
    · intro h
      obtain ⟨x, hx⟩ := hr.values _ _ _ hv hk (by simp)
      obtain ⟨m, rfl⟩ : ∃ m, x = .uint m := by cases hx <;> exact ⟨_, rfl⟩
      rw [key m hx] at h; injection h with h; subst h
      exact .given t m hv hx
    · intro h
      cases h with
      | given t' _ hv' hm =>
        have := (hl _).1 _ _ _ hv' hk (conv_means hm)
        simp [uintOr, get, hlk, this, Val.is]
      | default h => exact absurd hv (h _)
  · have hg' : ∀ v, .named name.toList v ∉ ts := fun v hv => hg ⟨v, hv⟩
    have e : uintOr vm name.toList d = some d := by simp [uintOr, get, hlk, (hl _).2 hg']
    rw [e]
    constructor
    · intro h; injection h with h; subst h; exact .default hg'
    · intro h
      cases h with
      | given t _ h hm => exact absurd h (hg' _)
      | default h => rfl

theorem limitOr_iff {vm : Vm} {name : Str} {d n : Nat} : limitOr vm name d = some n ↔ uintOr vm name d = some n ∧ 1 ≤ n ∧ n < 2 ^ 31 := by
  unfold limitOr
  cases h : uintOr vm name d with
  | none => simp
  | some m =>
    simp only [Option.some.injEq]
    split
    · constructor
      · intro h; exact nomatch h
      · rintro ⟨rfl, h1, h2⟩; omega
    · simp only [Option.some.injEq]
      constructor
      · rintro rfl; exact ⟨rfl, by omega, by omega⟩
      · exact fun h => h.1

theorem start_iff {ts : List Tok} {c : Nat} {vm : Vm} {ms : List Str} (h : parseDyn switchOpts ts = (c, vm, ms)) (s : Settings) :
    start ts = some s ↔ s.swap = (vm.lookup "enable-swap".toList).isSome ∧
      uintOr vm "drop-port".toList 511 = some s.dropPort ∧ uintOr vm "priority-queues".toList 1 = some s.queues ∧
      limitOr vm "max-mc-groups".toList 4096 = some s.groups ∧ limitOr vm "max-l1-entries".toList 4096 = some s.l1 ∧
      limitOr vm "max-l2-entries".toList 8192 = some s.l2 ∧ s.modules = ms := by
  have hf : getFlag switchOpts vm "enable-swap".toList = .ok (vm.lookup "enable-swap".toList).isSome := by
    have : (switchOpts.lookup "enable-swap".toList).isNone = false := by decide +kernel
    rw [getFlag, this]; rfl
  unfold start
  rw [h]
  simp only [hf]
  obtain ⟨a, b, c, d, e, f, g⟩ := s
  cases uintOr vm "drop-port".toList 511 <;> cases uintOr vm "priority-queues".toList 1 <;>
    cases limitOr vm "max-mc-groups".toList 4096 <;> cases limitOr vm "max-l1-entries".toList 4096 <;>
    cases limitOr vm "max-l2-entries".toList 8192 <;> simp [eq_comm]

/-- The switch starts exactly when all values can be read and the limits make sense, with the settings given, the defaults for the rest and
the modules named.  Needs: all options are known, none is given twice, no number has a minus. -/
theorem C117_partial (ts : List Tok) (hs : Splits switchOpts ts) (h1 : ∀ n, times ts n ≤ 1)
    (hneg : ∀ n t, .named n (some ('-' :: t)) ∈ ts → (n, .uint) ∉ switchOpts) (s : Settings) :
    start ts = some s ↔ Right switchOpts ts ∧ (s.swap = true ↔ .named "enable-swap".toList none ∈ ts) ∧
      Setting ts "drop-port" 511 s.dropPort ∧ Setting ts "priority-queues" 1 s.queues ∧
      (Setting ts "max-mc-groups" 4096 s.groups ∧ 1 ≤ s.groups ∧ s.groups < 2 ^ 31) ∧
      (Setting ts "max-l1-entries" 4096 s.l1 ∧ 1 ≤ s.l1 ∧ s.l1 < 2 ^ 31) ∧
      (Setting ts "max-l2-entries" 8192 s.l2 ∧ 1 ≤ s.l2 ∧ s.l2 < 2 ^ 31) ∧ Modules ts s.modules := by
  by_cases hr : Right switchOpts ts
  · obtain ⟨vm, e, hl⟩ := parse_ok switch_distinct hs h1 (fun n v ty hv ht => conv_right switch_distinct hr hv ht)
    have hm : ∃ ms, parseDyn switchOpts ts = (0, vm, ms) ∧ ∀ ms', Modules ts ms' ↔ ms' = ms := by
      have hk : ("load-modules".toList, Ty.str) ∈ switchOpts := by decide +kernel
      have hlk := (lookup_mem switch_distinct).2 hk
      by_cases hg : ∃ v, .named "load-modules".toList v ∈ ts
      · obtain ⟨v, hv⟩ := hg
        obtain ⟨t, rfl⟩ := value_of_splits hs hk (by simp) hv
        have g := (hl _).1 _ _ _ hv hk (conv_means (.str t))
        refine ⟨splitComma t, ?_, fun ms' => ⟨fun h => ?_, fun h => h ▸ .given t _ hv (words_iff.2 rfl)⟩⟩
        · simp only [parseDyn, e, loadModules, get, hlk, g, Val.is, Option.isNone_some, Bool.false_eq_true, if_false, if_true]
        · cases h with
          | given t' _ hv' hw =>
            have g' := (hl _).1 _ _ _ hv' hk (conv_means (.str t'))
            rw [g] at g'; injection g' with g'; injection g' with g'
            rw [g']; exact (words_iff.1 hw).symm
          | default h => exact absurd hv (h _)
      · have hg' : ∀ v, .named "load-modules".toList v ∉ ts := fun v hv => hg ⟨v, hv⟩
        refine ⟨[], ?_, fun ms' => ⟨fun h => ?_, fun h => h ▸ .default hg'⟩⟩
        · simp only [parseDyn, e, loadModules, get, hlk, (hl _).2 hg', Option.isNone_some, Bool.false_eq_true, if_false]
        · cases h with
          | given t' _ hv' hw => exact absurd hv' (hg' _)
          | default h => rfl
    obtain ⟨ms, hp, hms⟩ := hm
    have hsw : (vm.lookup "enable-swap".toList).isSome = true ↔ .named "enable-swap".toList none ∈ ts := by
      have hk : ("enable-swap".toList, Ty.flag) ∈ switchOpts := by decide +kernel
      constructor
      · intro h
        by_cases hg : ∃ v, .named "enable-swap".toList v ∈ ts
        · obtain ⟨v, hv⟩ := hg
          obtain ⟨ty', ht', hn⟩ := hs.2 _ v hv
          have := ty_unique switch_distinct hk ht'
          rw [← hn.1 this.symm]; exact hv
        · rw [(hl _).2 (fun v hv => hg ⟨v, hv⟩)] at h; exact nomatch h
      · intro hv
        rw [(hl _).1 _ _ _ hv hk (conv_flag rfl)]; rfl
    rw [start_iff hp s, limitOr_iff, limitOr_iff, limitOr_iff]
    rw [uintOr_iff hs (name := "drop-port") (by decide +kernel) hr hl, uintOr_iff hs (name := "priority-queues") (by decide +kernel) hr hl,
      uintOr_iff hs (name := "max-mc-groups") (by decide +kernel) hr hl, uintOr_iff hs (name := "max-l1-entries") (by decide +kernel) hr hl,
      uintOr_iff hs (name := "max-l2-entries") (by decide +kernel) hr hl, hms]
    constructor
    · rintro ⟨h, g⟩; exact ⟨hr, by rw [h]; exact hsw, g⟩
    · rintro ⟨-, h, g⟩
      refine ⟨?_, g⟩
      rw [Bool.eq_iff_iff]; exact h.trans hsw.symm
  · constructor
    · intro hst
      exfalso
      obtain ⟨vm, n, v, ty, e, hE, hv, ht, hc⟩ := parse_fail switch_distinct hs h1 (by
        apply Classical.byContradiction
        intro hno
        apply hr
        refine ⟨hs, h1, fun n v ty hv ht hf => ?_⟩
        cases hx : conv ty v with
        | none => exact absurd ⟨n, v, ty, hv, ht, hx⟩ hno
        | some x =>
          rcases means_conv hx hf with hm | ⟨rfl, t, rfl⟩
          · exact ⟨x, hm⟩
          · exact absurd ht (hneg n t hv))
      have hp : parseDyn switchOpts ts = (1, vm, []) := by simp only [parseDyn, e]
      have hu : ty = .uint := by
        have hall : ∀ p ∈ switchOpts, p.2 = .str ∨ p.2 = .flag ∨ p.2 = .uint := by decide +kernel
        rcases hall _ ht with h | h | h
        · obtain ⟨t, rfl⟩ := value_of_splits hs ht (by simp at h; simp [h]) hv
          simp only at h; subst h; exact nomatch hc
        · simp only at h; subst h
          obtain ⟨ty', ht', hn⟩ := hs.2 _ v hv
          have := ty_unique switch_distinct ht ht'
          rw [conv_flag (hn.1 this.symm)] at hc; exact nomatch hc
        · exact h
      subst hu
      have hbad : ∀ d, uintOr vm n d = none := by
        intro d
        simp [uintOr, get, (lookup_mem switch_distinct).2 ht, hE, Val.is]
      have hnames : ∀ p ∈ switchOpts, p.2 = .uint → p.1 = "drop-port".toList ∨ p.1 = "priority-queues".toList ∨ p.1 = "max-mc-groups".toList ∨
          p.1 = "max-l1-entries".toList ∨ p.1 = "max-l2-entries".toList := by decide +kernel
      obtain ⟨-, g1, g2, g3, g4, g5, -⟩ := (start_iff hp s).1 hst
      rw [limitOr_iff] at g3 g4 g5
      rcases hnames _ ht rfl with h | h | h | h | h <;> simp only at h <;> subst h
      · rw [hbad] at g1; exact nomatch g1
      · rw [hbad] at g2; exact nomatch g2
      · rw [hbad] at g3; exact nomatch g3.1
      · rw [hbad] at g4; exact nomatch g4.1
      · rw [hbad] at g5; exact nomatch g5.1
    · exact fun h => absurd h.1 hr

/-- Arguments with some of the options. -/
def sample : List Tok :=
  [.named "priority-queues".toList (some ['8']), .pos ['x'], .named "enable-swap".toList none,
   .named "load-modules".toList (some "a.so,b.so".toList)]

example : start sample = some ⟨true, 511, 8, 4096, 4096, 8192, ["a.so".toList, "b.so".toList]⟩ ∧
    start [.named "drop-port".toList (some ['x'])] = none ∧ start [.named "max-mc-groups".toList (some ['0'])] = none := by decide +kernel

theorem sample_right : Right switchOpts sample ∧ (∀ n t, .named n (some ('-' :: t)) ∈ sample → (n, .uint) ∉ switchOpts) := by
  have hs : Splits switchOpts sample := (all_ok switch_distinct).1 (by decide +kernel)
  have h1 : ∀ n, times sample n ≤ 1 := by
    intro n
    by_cases a : "priority-queues".toList = n
    · subst a; decide +kernel
    by_cases b : "enable-swap".toList = n
    · subst b; decide +kernel
    by_cases c : "load-modules".toList = n
    · subst c; decide +kernel
    simp only [times, sample, List.countP_cons, List.countP_nil, a, b, c, decide_false, Bool.false_eq_true, if_false]
    omega
  have hn : ∀ n t, .named n (some ('-' :: t)) ∈ sample → (n, .uint) ∉ switchOpts := by
    intro n t h
    simp only [sample, List.mem_cons, List.not_mem_nil, or_false, Tok.named.injEq, Option.some.injEq, reduceCtorEq, false_or, and_false] at h
    rcases h with ⟨-, h⟩ | ⟨-, h⟩
    · exact absurd h (by simp)
    · exact absurd (congrArg (List.head? ·) h) (by simp only [List.head?_cons]; decide +kernel)
  have e : start sample = some ⟨true, 511, 8, 4096, 4096, 8192, ["a.so".toList, "b.so".toList]⟩ := by decide +kernel
  exact ⟨((C117_partial sample hs h1 hn _).1 e).1, hn⟩

/-- Wrong arguments are ignored: with an unknown option, a value missing or a flag with a value, the switch starts with the defaults,
whatever else is given. -/
theorem C117_refuted_ignored (ts : List Tok) (h : ¬ Splits switchOpts ts) :
    start ts = some ⟨false, 511, 1, 4096, 4096, 8192, []⟩ := by
  have hp : parseDyn switchOpts ts = (1, [], []) := by
    have : ts.all (okTok switchOpts) = false := by
      cases g : ts.all (okTok switchOpts) with
      | false => rfl
      | true => exact absurd ((all_ok switch_distinct).1 g) h
    simp only [parseDyn, parse, this, Bool.false_eq_true, if_false]
  rw [start_iff hp]
  decide +kernel

/-- The parser does report it, for all sets of options; for right arguments it reports success, with or without modules. -/
theorem C117_code (o : Opts) (hd : Distinct o) (ts : List Tok) :
    (¬ Splits o ts → (parse o ts).1 = 1 ∧ (parseDyn o ts).1 = 1) ∧
    (Right o ts → ("load-modules".toList, .str) ∈ o → (parse o ts).1 = 0 ∧ (parseDyn o ts).1 = 0) := by
  constructor
  · intro h
    have : ts.all (okTok o) = false := by
      cases g : ts.all (okTok o) with
      | false => rfl
      | true => exact absurd ((all_ok hd).1 g) h
    have e : parse o ts = (1, []) := by simp only [parse, this, Bool.false_eq_true, if_false]
    simp only [parseDyn, e, and_self]
  · intro h hk
    obtain ⟨vm, e, -, h2, h3, -⟩ := C117_get o hd ts h
    have hl : ∃ ms, loadModules o vm = .ok ms := by
      by_cases hg : ∃ v, .named "load-modules".toList v ∈ ts
      · obtain ⟨v, hv⟩ := hg
        obtain ⟨x, hx⟩ := h.values _ _ _ hv hk (by simp)
        obtain ⟨t, rfl⟩ : ∃ t, x = .str t := by cases hx; exact ⟨_, rfl⟩
        exact ⟨_, by rw [loadModules, (h3 _ _ _ _ hk hv hx).1]⟩
      · exact ⟨_, by rw [loadModules, (h2 _ _ .str hk (fun v hv => hg ⟨v, hv⟩)).1]⟩
    obtain ⟨ms, hms⟩ := hl
    simp only [parseDyn, e, hms, and_self]

/-- For example: an option misspelt, after one that is right. -/
def misspelt : List Tok := [.named "drop-port".toList (some "255".toList), .named "priority-queue-s".toList (some ['8'])]

example : ¬ Splits switchOpts misspelt := fun h => by
  have := (all_ok switch_distinct).2 h
  revert this; decide +kernel

/-- An option given twice: the options behind it are lost, the switch starts. -/
theorem C117_refuted_twice :
    start [.named "drop-port".toList (some ['1']), .named "drop-port".toList (some ['2']), .named "priority-queues".toList (some ['8'])] =
      some ⟨false, 1, 1, 4096, 4096, 8192, []⟩ := by decide +kernel

/-- The drop port and the number of queues may be negative, and are taken modulo 2^32. -/
theorem C117_refuted_negative :
    start [.named "drop-port".toList (some "-1".toList), .named "priority-queues".toList (some "-4294967294".toList)] =
      some ⟨false, 4294967295, 2, 4096, 4096, 8192, []⟩ := by decide +kernel

/-- No queues at all are accepted; then the switch takes no packet, whatever its priority. -/
theorem C117_refuted_queues : ∃ s, start [.named "priority-queues".toList (some ['0'])] = some s ∧ ∀ p, takes s p = false :=
  ⟨⟨false, 511, 0, 4096, 4096, 8192, []⟩, by decide +kernel, fun p => by simp [takes]⟩

/-- The type is not always checked: a flag can be read as a text, and any option as a flag. -/
theorem C117_refuted_type (o : Opts) (hd : Distinct o) (n m : Str) (hn : (n, .flag) ∈ o) (hm : (m, .uint) ∈ o) :
    ∃ vm, parse o [.named n none, .named m (some ['7'])] = (0, vm) ∧ get o vm .str n = .ok (.str []) ∧ getFlag o vm m = .ok true := by
  have hne : n ≠ m := by rintro rfl; exact nomatch ty_unique hd hn hm
  have l1 := (lookup_mem hd).2 hn
  have l2 := (lookup_mem hd).2 hm
  refine ⟨[(n, .str []), (m, .uint 7)], ?_, ?_, ?_⟩
  · have hl : ∀ x, List.lookup m [(n, x)] = (none : Option Val) := by
      intro x; rw [List.lookup_cons]; have : (m == n) = false := by simp [Ne.symm hne]
      rw [this]; rfl
    have hc : conv .uint (some ['7']) = some (.uint 7) := by decide +kernel
    have hf : conv .flag none = some (.str []) := rfl
    simp [parse, okTok, store, l1, l2, hl, hc, hf]
  · simp [get, l1, Val.is]
  · have : (m == n) = false := by simp [Ne.symm hne]
    simp [getFlag, l2, List.lookup_cons, this]

example : Distinct switchOpts ∧ ("enable-swap".toList, Ty.flag) ∈ switchOpts ∧ ("drop-port".toList, Ty.uint) ∈ switchOpts :=
  ⟨switch_distinct, by decide +kernel, by decide +kernel⟩

end Bm.TargetOpts
