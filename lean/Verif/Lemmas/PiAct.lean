import Verif.Model.PiAct
import Verif.Lemmas.ProfileRun
import Verif.Lemmas.PiEntry
import Verif.Props.PiEntry

/-!
# Lemmas about action profiles through PI
-/

set_option linter.unusedSectionVars false

namespace Bm.PiAct

open Bm.Spec Bm.PiAct.Spec Bm.PiEntry Bm.PiEntry.Spec

/-! ## Handles -/

theorem hdl_eq (h : UInt64) : hdl h = h.toNat % 2 ^ 32 := by
  unfold hdl; rw [UInt64.toNat_toUInt32]

theorem hdl_mbr {h : UInt64} (hh : IsMbr h) : hdl h = h.toNat := by
  rw [hdl_eq]; exact Nat.mod_eq_of_lt hh

theorem clear_mod (g : UInt64) : (clearGrpH g).toNat % 2 ^ 32 = g.toNat % 2 ^ 32 := by
  unfold clearGrpH
  have hm : (~~~ (0x8000000000000000 : UInt64)).toNat = 2 ^ 63 - 1 := by decide
  rw [UInt64.toNat_and, hm, Nat.and_two_pow_sub_one_eq_mod, Nat.mod_mod_of_dvd _ (by decide)]

theorem hdl_clear {h : UInt64} (hh : IsGrp h) : hdl (clearGrpH h) = h.toNat - 2 ^ 63 := by
  obtain ⟨g, hg, e⟩ := hh
  rw [hdl_eq, clear_mod, e]
  omega

theorem hdl_grp {h : UInt64} (hh : IsGrp h) : hdl h = h.toNat - 2 ^ 63 := by
  obtain ⟨g, hg, e⟩ := hh
  rw [hdl_eq, e]
  omega

theorem makeGrp_toNat {g : Nat} (hg : g < 2 ^ 32) : (makeGrpH (UInt64.ofNat g)).toNat = 2 ^ 63 + g := by
  unfold makeGrpH
  rw [UInt64.toNat_or, show ((0x8000000000000000 : UInt64)).toNat = 2 ^ 63 from by decide,
    UInt64.toNat_ofNat_of_lt' (by show g < 2 ^ 64; omega), Nat.or_comm]
  have := Nat.two_pow_add_eq_or_of_lt (show g < 2 ^ 63 by omega) 1
  rw [Nat.mul_one] at this
  exact this.symm

/-! ## Action data -/

theorem build_splits {ws b vs} (h : Splits ws b vs) : buildActionData ws b = some vs := by
  induction h with
  | nil => rfl
  | cons hx _ ih => exact C90_action_value _ _ _ _ _ hx _ ih

theorem splits_length {ws b vs} (h : Splits ws b vs) : b.length = (ws.map fun w => (w + 7) / 8).sum := by
  induction h with
  | nil => rfl
  | cons hx _ ih => rw [List.length_append, hx.1, ih]; rfl

theorem build_means {inf : Info} {id b a} (h : Means inf id b a) : build inf id b = some a := by
  obtain ⟨rfl, ws, hw, hs⟩ := h
  simp only [build, hw, Option.bind_eq_bind, Option.bind_some, build_splits hs, Option.pure_def]

theorem means_unique {inf : Info} {id b a a'} (h : Means inf id b a) (h' : Means inf id b a') : a = a' :=
  Option.some.inj ((build_means h).symm.trans (build_means h'))

theorem dump_splits {ws b vs} (hw : ∀ w ∈ ws, 1 ≤ w) (h : Splits ws b vs) : dumpActionData ws vs = some b := by
  obtain ⟨ds, e1, _, e3⟩ := C90_action_data ws hw b (splits_length h)
  rw [build_splits h] at e1
  cases e1
  exact e3

/-- The data of an action determine its bytes. -/
theorem means_bytes {inf : Info} (hi : inf.Ok) {id b b' a} (h : Means inf id b a) (h' : Means inf id b' a) :
    b = b' := by
  obtain ⟨rfl, ws, hw, hs⟩ := h
  obtain ⟨-, ws', hw', hs'⟩ := h'
  rw [hw] at hw'; cases hw'
  have hp := (hi _ _ hw).2.1
  exact Option.some.inj ((dump_splits hp hs).symm.trans (dump_splits hp hs'))

/-! ## Numbers -/

theorem le_put (k n : Nat) (r : Bytes) : le k (put k n ++ r) = some (n % 256 ^ k, r) := by
  induction k generalizing n with
  | zero => simp [le, put, Nat.mod_one]
  | succ k ih =>
    simp only [put, List.cons_append, le, ih, Option.map_some, Option.some.injEq, Prod.mk.injEq, and_true]
    rw [UInt8.toNat_ofNat', show (2 : Nat) ^ 8 = 256 from rfl, Nat.pow_succ', Nat.mod_mul]

theorem le8 {n : Nat} (h : n < 2 ^ 64) (r : Bytes) : le 8 (put 8 n ++ r) = some (n, r) := by
  rw [le_put, Nat.mod_eq_of_lt (by simpa using h)]

theorem le4 {n : Nat} (h : n < 2 ^ 32) (r : Bytes) : le 4 (put 4 n ++ r) = some (n, r) := by
  rw [le_put, Nat.mod_eq_of_lt (by simpa using h)]

/-! ## Members -/

theorem emit_read_member {inf : Info} (hi : inf.Ok) {m : Nat} (hm : m < 2 ^ 64) {a : Act} {b : Bytes}
    (h : Means inf a.id b a) :
    ∃ e, emitMember inf (m, a) = some e ∧ ∀ r, readMember (e ++ r) = some ((m, a.id, b), r) := by
  obtain ⟨-, ws, hw, hs⟩ := h
  obtain ⟨h1, h2, h3⟩ := hi _ _ hw
  have hl := splits_length hs
  refine ⟨put 8 m ++ put 4 a.id ++ put 4 b.length ++ b, ?_, ?_⟩
  · simp only [emitMember, hw, Option.bind_eq_bind, Option.bind_some, Option.pure_def, ← hl]
    by_cases h0 : 0 < b.length
    · rw [if_pos h0, dump_splits h2 hs]; rfl
    · rw [if_neg h0]
      have : b = [] := List.length_eq_zero_iff.mp (by omega)
      rw [this]
  · intro r
    simp only [readMember, List.append_assoc, le8 hm, le4 h1, le4 (hl ▸ h3), Option.bind_eq_bind, Option.bind_some]
    rw [if_pos (by simp), List.take_left, List.drop_left]

theorem emit_read_members {inf : Info} (hi : inf.Ok) : ∀ (l : List (Nat × Act)),
    (∀ x ∈ l, x.1 < 2 ^ 64 ∧ ∃ b, Means inf x.2.id b x.2) →
    ∃ e ms, emitMembers inf l = some e ∧ readMembers l.length e = some ms ∧
      ms.map (fun x => x.1) = l.map Prod.fst ∧
      ∀ h id b, (h, id, b) ∈ ms ↔ ∃ a, (h, a) ∈ l ∧ Means inf id b a
  | [], _ => ⟨[], [], rfl, rfl, rfl, by simp⟩
  | (m, a) :: l, h => by
    obtain ⟨hm, b, hb⟩ := h (m, a) (by simp)
    obtain ⟨e, he, hr⟩ := emit_read_member hi hm hb
    obtain ⟨e', ms, he', hr', hk, hx⟩ := emit_read_members hi l (fun x hx => h x (by simp [hx]))
    refine ⟨e ++ e', (m, a.id, b) :: ms, ?_, ?_, ?_, ?_⟩
    · simp only [emitMembers, he, he', Option.bind_eq_bind, Option.bind_some, Option.pure_def]
    · simp only [List.length_cons, readMembers, hr, hr', Option.bind_eq_bind, Option.bind_some]
    · simp [hk]
    · intro h id b'
      rw [List.mem_cons, hx]
      constructor
      · rintro (e | ⟨a', ha', hm'⟩)
        · simp only [Prod.mk.injEq] at e
          obtain ⟨rfl, rfl, rfl⟩ := e
          exact ⟨a, by simp, hb⟩
        · exact ⟨a', by simp [ha'], hm'⟩
      · rintro ⟨a', ha', hm'⟩
        rcases List.mem_cons.1 ha' with e | ha'
        · simp only [Prod.mk.injEq] at e
          obtain ⟨rfl, rfl⟩ := e
          left
          have hid := hm'.1
          subst hid
          rw [means_bytes hi hm' hb]
        · exact Or.inr ⟨a', ha', hm'⟩

/-! ## Groups -/

theorem emit_read_groups : ∀ (gs : List (Nat × List Nat)) (pre : List UInt64),
    (∀ x ∈ gs, x.1 < 2 ^ 32) →
    (pre ++ gs.flatMap fun g => g.2.map UInt64.ofNat).length < 2 ^ 32 →
    readGroups (pre ++ gs.flatMap fun g => g.2.map UInt64.ofNat) gs.length (emitGroups pre.length gs)
      = some (gs.map fun g => (2 ^ 63 + g.1, g.2.map UInt64.ofNat))
  | [], _, _, _ => rfl
  | (g, l) :: gs, pre, h, hlen => by
    have hg := h (g, l) (by simp)
    simp only at hg
    have hl : pre.length + l.length ≤
        (pre ++ ((g, l) :: gs).flatMap fun g => g.2.map UInt64.ofNat).length := by
      simp only [List.flatMap_cons, List.length_append, List.length_map]; omega
    have ih := emit_read_groups gs (pre ++ l.map UInt64.ofNat) (fun x hx => h x (by simp [hx])) (by
      simpa [List.flatMap_cons] using hlen)
    rw [List.length_append, List.length_map] at ih
    simp only [List.length_cons, readGroups, readGroup, emitGroups, List.append_assoc, makeGrp_toNat hg,
      le8 (show 2 ^ 63 + g < 2 ^ 64 by omega), le4 (show l.length < 2 ^ 32 by omega),
      le4 (show pre.length < 2 ^ 32 by omega), Option.bind_eq_bind, Option.bind_some, if_pos hl]
    have e : pre ++ ((g, l) :: gs).flatMap (fun g => g.2.map UInt64.ofNat)
        = (pre ++ l.map UInt64.ofNat) ++ gs.flatMap fun g => g.2.map UInt64.ofNat := by
      simp [List.flatMap_cons]
    rw [e, ih]
    simp only [Option.bind_some, List.map_cons, List.append_assoc, List.drop_left]
    rw [List.take_append_of_le_length (by simp), List.take_of_length_le (by simp)]

/-! ## Calls -/

variable {ι : Type} [DecidableEq ι] [Fintype ι] {kind : ι → TableKind} {R : Type}

/-- The numbers of members and groups stay within 24 bits. -/
def Room (st : ISys ι kind R Act) : Call → Prop
  | .mbrCreate _ _ => st.prof.numMembers < 2 ^ 24
  | .grpCreate => st.prof.numGroups < 2 ^ 24
  | _ => True

/-- Every member has an action the client can name. -/
def AllMean (inf : Info) (s : PState ι (KeyOf kind) Act) : Prop :=
  ∀ m a, s.mem m = some a → ∃ b, Means inf a.id b a

/-- The action of the operation is one the client can name. -/
def Known (inf : Info) : POp ι (KeyOf kind) Act → Prop
  | .addMember (some a) => ∃ b, Means inf a.id b a
  | .modMember _ (some a) => ∃ b, Means inf a.id b a
  | _ => True

theorem AllMean.ins {inf : Info} {s : PState ι (KeyOf kind) Act} (h : AllMean inf s) {a : Act}
    (ha : ∃ b, Means inf a.id b a) (m : Nat) :
    AllMean inf { s with mem := fun x => if x = m then some a else s.mem x } := by
  intro x y hx
  simp only at hx
  split at hx
  · cases hx; exact ha
  · exact h _ _ hx

theorem AllMean.del {inf : Info} {s : PState ι (KeyOf kind) Act} (h : AllMean inf s) (m : Nat) :
    AllMean inf { s with mem := fun x => if x = m then none else s.mem x } := by
  intro x y hx
  simp only at hx
  split at hx
  · cases hx
  · exact h _ _ hx

theorem AllMean.step {inf : Info} {c : PCfg ι (KeyOf kind)} {s s' : PState ι (KeyOf kind) Act} {op out}
    (h : AllMean inf s) (hk : Known inf op) (hs : PStep c s op s' out) : AllMean inf s' := by
  cases op with
  | addMember a =>
    cases a with
    | none => rw [hs.2]; exact h
    | some a => obtain ⟨m, _, _, rfl⟩ := hs; exact h.ins hk m
  | delMember m =>
    rcases hs with ⟨_, _, rfl⟩ | ⟨_, _, _, rfl⟩ | ⟨_, _, _, rfl⟩
    · exact h
    · exact h
    · exact h.del m
  | modMember m a =>
    cases a with
    | none => rw [hs.2]; exact h
    | some a =>
      rcases hs with ⟨_, _, rfl⟩ | ⟨_, _, rfl⟩
      · exact h
      · exact h.ins hk m
  | newGroup => obtain ⟨g, _, _, rfl⟩ := hs; exact h
  | delGroup g => rcases hs with ⟨_, _, rfl⟩ | ⟨_, _, _, rfl⟩ | ⟨_, _, _, rfl⟩ <;> exact h
  | join m g =>
    rcases hs with ⟨_, _, rfl⟩ | ⟨_, _, _, rfl⟩ | ⟨_, _, _, ⟨_, _, rfl⟩ | ⟨_, _, rfl⟩⟩ <;> exact h
  | leave m g =>
    rcases hs with ⟨_, _, rfl⟩ | ⟨_, _, _, rfl⟩ | ⟨_, _, _, ⟨_, _, rfl⟩ | ⟨_, _, rfl⟩⟩ <;> exact h
  | getMember m => rw [hs.1]; exact h
  | getMembers => rw [hs.1]; exact h
  | getGroup g => rw [hs.1]; exact h
  | getGroups => rw [hs.1]; exact h
  | counts => rw [hs.1]; exact h
  | tAdd i key r now => rcases hs with ⟨_, _, _, rfl⟩ | ⟨_, _, _, _, _, rfl⟩ <;> exact h
  | tDel i hd => obtain ⟨_, _, _, _, rfl⟩ := hs; exact h
  | tMod i hd r => rcases hs with ⟨_, _, _, _, rfl⟩ | ⟨_, _, _, _, _, rfl⟩ <;> exact h
  | tGet i hd => obtain ⟨_, _, _, rfl⟩ := hs; exact h
  | tLookup i q nb ts hash => rw [hs.1]; exact h
  | setDflt i r => rcases hs with ⟨_, _, rfl⟩ | ⟨_, _, _, rfl⟩ | ⟨_, _, _, rfl⟩ <;> exact h
  | unsetDflt i => obtain ⟨_, rfl⟩ := hs; exact h
  | clear i b => obtain ⟨_, rfl⟩ := hs; exact h
  | resetAll => obtain ⟨_, rfl⟩ := hs; intro m a hx; cases hx

/-- What a call through PI achieves. -/
def GoodPi (inf : Info) (st : ISys ι kind R Act) (s : PState ι (KeyOf kind) Act) (c : Call) : Prop :=
  ∃ r st' s' Sm' Sg', exec inf st c = some (r, st') ∧ PRep st' s' Sm' Sg' ∧ Step inf st.cfg s c r s' ∧
    st'.cfg = st.cfg ∧ AllMean inf s'

theorem reports_of {K : ι → Type} {A : Type} {o : POut ι K A} (h : o = .done ∨ ∃ e, o = .err e)
    (mk : UInt64 → UInt64) : ∃ r, report mk o = some r ∧ Reports o r := by
  rcases h with rfl | ⟨e, rfl⟩
  · exact ⟨_, rfl, .done⟩
  · exact ⟨_, rfl, .err⟩

theorem call_eq {st st' : ISys ι kind R Act} {op o r} {mk : UInt64 → UInt64}
    (h : st.exec op = some (o, st')) (hr : report mk o = some r) : call st op mk = some (r, st') := by
  simp only [call, h, Option.bind_eq_bind, Option.bind_some, hr, Option.pure_def]

variable {st : ISys ι kind R Act} {s : PState ι (KeyOf kind) Act} {Sm Sg : Finset Nat}

/-- Calls that do not create anything. -/
theorem good_plain {inf : Info} (h : PRep st s Sm Sg) (hn : Fintype.card ι ≤ 254) (ha : AllMean inf s)
    (op : POp ι (KeyOf kind) Act) (hv : op.Valid st.cfg) (hp : st.Pre op) (hc : ∀ o, CleanOut op o)
    (hk : Known inf op) (hx : ∀ s' o, PStep st.cfg s op s' o → o = .done ∨ ∃ e, o = .err e) :
    ∃ r st' s' Sm' Sg' o, call st op same = some (r, st') ∧ PRep st' s' Sm' Sg' ∧
      PStep st.cfg s op s' o ∧ Reports o r ∧ st'.cfg = st.cfg ∧ AllMean inf s' := by
  obtain ⟨out, st', e, hg⟩ := h.exec hn op hv hp
  obtain ⟨s', Sm', Sg', h', hs', hcfg⟩ := hg (hc _)
  obtain ⟨r, hr, hrep⟩ := reports_of (hx _ _ hs') same
  exact ⟨r, st', s', Sm', Sg', out, call_eq e hr, h', hs', hrep, hcfg, ha.step hk hs'⟩

theorem good_exec {inf : Info} (h : PRep st s Sm Sg) (hn : Fintype.card ι ≤ 254) (ha : AllMean inf s)
    (c : Call) (hp : c.Proper inf) (hr : Room st c) : GoodPi inf st s c := by
  cases c with
  | mbrCreate i b =>
    obtain ⟨a, hm⟩ := hp
    obtain ⟨out, st', e, hg⟩ := h.exec hn (.addMember (some a)) trivial hr
    obtain ⟨s', Sm', Sg', h', hs', hcfg⟩ := hg trivial
    obtain ⟨m, h0, rfl, hs''⟩ := id hs'
    have hlt : m < 2 ^ 24 := h'.fits (r := .mbr m) (by simp [PState.Has, hs''])
    have ht : (UInt64.ofNat m).toNat = m := UInt64.toNat_ofNat_of_lt' (by show m < 2 ^ 64; omega)
    refine ⟨.handle (UInt64.ofNat m), st', s', Sm', Sg', ?_, h', ⟨a, m, _, hm, hs', rfl, ht, ?_⟩, hcfg,
      ha.step (show Known inf (.addMember (some a)) from ⟨b, hm.1 ▸ hm⟩) hs'⟩
    · simp only [exec, build_means hm, Option.bind_eq_bind, Option.bind_some]
      exact call_eq e rfl
    · show (UInt64.ofNat m).toNat < 2 ^ 32
      rw [ht]; omega
  | mbrDelete hd =>
    obtain ⟨r, st', s', Sm', Sg', o, e, h', hs', hrep, hcfg, ha'⟩ :=
      good_plain h hn ha (.delMember hd.toNat) trivial trivial (fun _ => trivial) trivial (by
        rintro s' o (⟨_, rfl, _⟩ | ⟨_, _, rfl, _⟩ | ⟨_, _, rfl, _⟩) <;> simp)
    exact ⟨r, st', s', Sm', Sg', by simp only [exec, hdl_mbr hp]; exact e, h', ⟨o, hs', hrep⟩, hcfg, ha'⟩
  | mbrModify hd id b =>
    obtain ⟨hh, a, hm⟩ := hp
    obtain ⟨r, st', s', Sm', Sg', o, e, h', hs', hrep, hcfg, ha'⟩ :=
      good_plain h hn ha (.modMember hd.toNat (some a)) trivial trivial (fun _ => trivial)
        (show Known inf (.modMember hd.toNat (some a)) from ⟨b, hm.1 ▸ hm⟩) (by
        rintro s' o (⟨_, rfl, _⟩ | ⟨_, rfl, _⟩) <;> simp)
    refine ⟨r, st', s', Sm', Sg', ?_, h', ⟨a, o, hm, hs', hrep⟩, hcfg, ha'⟩
    simp only [exec, hdl_mbr hh, build_means hm, Option.bind_eq_bind, Option.bind_some]
    exact e
  | grpCreate =>
    obtain ⟨out, st', e, hg⟩ := h.exec hn .newGroup trivial hr
    obtain ⟨s', Sm', Sg', h', hs', hcfg⟩ := hg trivial
    obtain ⟨g, h0, rfl, hs''⟩ := id hs'
    have hlt : g < 2 ^ 24 := h'.fits (r := .grp g) (by simp [PState.Has, hs''])
    have ht := makeGrp_toNat (show g < 2 ^ 32 by omega)
    exact ⟨.handle (makeGrpH (UInt64.ofNat g)), st', s', Sm', Sg', call_eq e rfl, h',
      ⟨g, _, hs', rfl, ht, g, by omega, ht⟩, hcfg, ha.step (op := .newGroup) trivial hs'⟩
  | grpDelete g =>
    obtain ⟨r, st', s', Sm', Sg', o, e, h', hs', hrep, hcfg, ha'⟩ :=
      good_plain h hn ha (.delGroup (g.toNat - 2 ^ 63)) trivial trivial (fun _ => trivial) trivial (by
        rintro s' o (⟨_, rfl, _⟩ | ⟨_, _, rfl, _⟩ | ⟨_, _, rfl, _⟩) <;> simp)
    exact ⟨r, st', s', Sm', Sg', by simp only [exec, hdl_clear hp]; exact e, h', ⟨o, hs', hrep⟩, hcfg, ha'⟩
  | grpAdd g m =>
    obtain ⟨r, st', s', Sm', Sg', o, e, h', hs', hrep, hcfg, ha'⟩ :=
      good_plain h hn ha (.join m.toNat (g.toNat - 2 ^ 63)) trivial trivial (fun _ => trivial) trivial (by
        rintro s' o (⟨_, rfl, _⟩ | ⟨_, _, rfl, _⟩ | ⟨_, _, _, ⟨_, rfl, _⟩ | ⟨_, rfl, _⟩⟩) <;> simp)
    exact ⟨r, st', s', Sm', Sg', by simp only [exec, hdl_clear hp.1, hdl_mbr hp.2]; exact e, h',
      ⟨o, hs', hrep⟩, hcfg, ha'⟩
  | grpRemove g m =>
    obtain ⟨r, st', s', Sm', Sg', o, e, h', hs', hrep, hcfg, ha'⟩ :=
      good_plain h hn ha (.leave m.toNat (g.toNat - 2 ^ 63)) trivial trivial (fun _ => trivial) trivial (by
        rintro s' o (⟨_, rfl, _⟩ | ⟨_, _, rfl, _⟩ | ⟨_, _, _, ⟨_, rfl, _⟩ | ⟨_, rfl, _⟩⟩) <;> simp)
    exact ⟨r, st', s', Sm', Sg', by simp only [exec, hdl_clear hp.1, hdl_mbr hp.2]; exact e, h',
      ⟨o, hs', hrep⟩, hcfg, ha'⟩

/-! ## Fetching -/

theorem toNat_list (l : List Nat) (h : ∀ x ∈ l, x < 2 ^ 64) : (l.map UInt64.ofNat).map UInt64.toNat = l := by
  rw [List.map_map]
  conv => rhs; rw [← List.map_id l]
  exact List.map_congr_left fun x hx => UInt64.toNat_ofNat_of_lt' (h x hx)

theorem members_lt (h : PRep st s Sm Sg) {g G l} (hg : s.grp g = some G) (hl : Lists l G) :
    ∀ x ∈ l, x < 2 ^ 24 := fun x hx =>
  h.fits (r := .mbr x) (h.closed _ (.inr (.inr ⟨x, g, G, rfl, hg, (hl.2 x).1 hx⟩)))

theorem shows_members {inf : Info} (hi : inf.Ok) (h : PRep st s Sm Sg) (ha : AllMean inf s)
    (l : List (Nat × Act)) (hp : (l.map Prod.fst).Pairwise (· < ·)) (P : Nat → Prop)
    (hm : ∀ m a, (m, a) ∈ l ↔ P m ∧ s.mem m = some a) :
    ∃ e ms, emitMembers inf l = some e ∧ readMembers l.length e = some ms ∧
      (ms.map fun x => x.1).Pairwise (· < ·) ∧
      ∀ h id b, (h, id, b) ∈ ms ↔ P h ∧ ∃ a, s.mem h = some a ∧ Means inf id b a := by
  obtain ⟨e, ms, e1, e2, e3, e4⟩ := emit_read_members hi l (by
    rintro ⟨m, a⟩ hx
    have hma := ((hm m a).1 hx).2
    have := h.fits (r := .mbr m) (by simp [PState.Has, hma])
    simp only [refId] at this
    exact ⟨by show m < 2 ^ 64; omega, ha m a hma⟩)
  refine ⟨e, ms, e1, e2, e3 ▸ hp, ?_⟩
  intro x id b
  rw [e4]
  constructor
  · rintro ⟨a, hx, hb⟩; exact ⟨((hm _ _).1 hx).1, a, ((hm _ _).1 hx).2, hb⟩
  · rintro ⟨hP, a, hx, hb⟩; exact ⟨a, (hm _ _).2 ⟨hP, hx⟩, hb⟩

theorem shows_groups (h : PRep st s Sm Sg) (gs : List (Nat × List Nat))
    (hg : ∀ g x, (g, x) ∈ gs → ∃ G, s.grp g = some G ∧ Lists x G)
    (hlen : (gs.flatMap fun g => g.2.map UInt64.ofNat).length < 2 ^ 32) :
    readGroups (gs.flatMap fun g => g.2.map UInt64.ofNat) gs.length (emitGroups 0 gs)
      = some (gs.map fun g => (2 ^ 63 + g.1, g.2.map UInt64.ofNat)) ∧
    ∀ h' l, (h', l) ∈ gs.map (fun g => (2 ^ 63 + g.1, g.2.map UInt64.ofNat)) →
      ∃ g G, h' = 2 ^ 63 + g ∧ s.grp g = some G ∧ Lists (l.map UInt64.toNat) G := by
  constructor
  · refine emit_read_groups gs [] ?_ hlen
    rintro ⟨g, x⟩ hx
    obtain ⟨G, hG, _⟩ := hg g x hx
    have := h.fits (r := .grp g) (by simp [PState.Has, hG])
    simp only [refId] at this
    show g < 2 ^ 32
    omega
  · intro h' l hx
    obtain ⟨⟨g, x⟩, hgx, e⟩ := List.mem_map.1 hx
    simp only [Prod.mk.injEq] at e
    obtain ⟨rfl, rfl⟩ := e
    obtain ⟨G, hG, hl⟩ := hg g x hgx
    refine ⟨g, G, rfl, hG, ?_⟩
    rw [toNat_list x fun y hy => Nat.lt_of_lt_of_le (members_lt h hG hl y hy) (by decide)]
    exact hl

end Bm.PiAct
