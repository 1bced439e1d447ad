import Verif.Lemmas.PiAct
import Verif.Props.ActionProfile

/-!
# C94: action profiles through PI
-/

set_option linter.unusedSectionVars false

namespace Bm.PiAct

open Bm.Spec Bm.PiAct.Spec

variable {ι : Type} [DecidableEq ι] [Fintype ι] {kind : ι → TableKind} {R : Type}

/-- Histories: calls through PI with handles of the right kind and data that belong to the action, and
operations by others within the limits of C15. -/
def Fits (inf : Info) : ISys ι kind R Act → List (Ev ι (KeyOf kind)) → Prop
  | _, [] => True
  | st, .pi c :: es => c.Proper inf ∧ Room st c ∧ ∀ r st', exec inf st c = some (r, st') → Fits inf st' es
  | st, .sw op :: es => op.Valid st.cfg ∧ st.Pre op ∧ Known inf op ∧
      ∀ o st', st.exec op = some (o, st') → CleanOut op o ∧ Fits inf st' es

/-- Allowed results of a history. -/
inductive Trace (inf : Info) (c : PCfg ι (KeyOf kind)) : PState ι (KeyOf kind) Act →
    List (Ev ι (KeyOf kind)) → List (Res ⊕ POut ι (KeyOf kind) Act) → PState ι (KeyOf kind) Act → Prop
  | nil (s) : Trace inf c s [] [] s
  | pi {s s' s'' x r es os} : Step inf c s x r s' → Trace inf c s' es os s'' →
      Trace inf c s (.pi x :: es) (.inl r :: os) s''
  | sw {s s' s'' op o es os} : PStep c s op s' o → Trace inf c s' es os s'' →
      Trace inf c s (.sw op :: es) (.inr o :: os) s''

theorem run_good {inf : Info} (hn : Fintype.card ι ≤ 254) (es : List (Ev ι (KeyOf kind))) :
    ∀ {st : ISys ι kind R Act} {s Sm Sg}, PRep st s Sm Sg → AllMean inf s → Fits inf st es →
    ∃ os st' s' Sm' Sg', run inf st es = some (os, st') ∧ PRep st' s' Sm' Sg' ∧
      Trace inf st.cfg s es os s' ∧ AllMean inf s' := by
  induction es with
  | nil => intro st s Sm Sg h ha _; exact ⟨[], st, s, Sm, Sg, rfl, h, .nil s, ha⟩
  | cons e es ih =>
    intro st s Sm Sg h ha hf
    cases e with
    | pi c =>
      obtain ⟨hp, hr, hrest⟩ := hf
      obtain ⟨r, st1, s1, Sm1, Sg1, e1, h1, hs1, hcfg, ha1⟩ := good_exec h hn ha c hp hr
      obtain ⟨os, st2, s2, Sm2, Sg2, e2, h2, tr, ha2⟩ := ih h1 ha1 (hrest _ _ e1)
      rw [hcfg] at tr
      exact ⟨_, st2, s2, Sm2, Sg2, by simp only [run, e1, e2, Option.bind_eq_bind, Option.bind_some,
        Option.pure_def], h2, .pi hs1 tr, ha2⟩
    | sw op =>
      obtain ⟨hv, hp, hk, hrest⟩ := hf
      obtain ⟨o, st1, e1, hg⟩ := h.exec hn op hv hp
      obtain ⟨hco, hf1⟩ := hrest _ _ e1
      obtain ⟨s1, Sm1, Sg1, h1, hs1, hcfg⟩ := hg hco
      obtain ⟨os, st2, s2, Sm2, Sg2, e2, h2, tr, ha2⟩ := ih h1 (ha.step hk hs1) hf1
      rw [hcfg] at tr
      exact ⟨_, st2, s2, Sm2, Sg2, by simp only [run, e1, e2, Option.bind_eq_bind, Option.bind_some,
        Option.pure_def], h2, .sw hs1 tr, ha2⟩

/-! ## Fetching -/

variable {st : ISys ι kind R Act} {s : PState ι (KeyOf kind) Act} {Sm Sg : Finset Nat}

theorem fetch_all {inf : Info} (hi : inf.Ok) (h : PRep st s Sm Sg) (ha : AllMean inf s) :
    ∃ f, entriesFetch inf st = some f ∧ ShowsMembers inf s f.numMembers f.members ∧
      (f.handles.length < 2 ^ 32 → ShowsGroups s f.handles f.numGroups f.groups) := by
  obtain ⟨o1, st1, e1, s1, _, _, _, ⟨-, l, rfl, hp, hm⟩, _⟩ := h.getMembers
  obtain ⟨o2, st2, e2, s2, _, _, _, ⟨-, gs, rfl, hp2, hg, hg2⟩, _⟩ := h.getGroups
  simp only [ISys.exec, Option.map_eq_some_iff, Prod.mk.injEq, POut.members.injEq] at e1
  simp only [ISys.exec, Option.map_eq_some_iff, Prod.mk.injEq, POut.groups.injEq] at e2
  obtain ⟨l, e1, rfl, -⟩ := e1
  obtain ⟨gs, e2, rfl, -⟩ := e2
  obtain ⟨e, ms, x1, x2, x3, x4⟩ := shows_members hi h ha _ hp (fun _ => True) (by simpa using hm)
  have ee : entriesFetch inf st = some ⟨l.length, e, gs.length, emitGroups 0 gs,
      gs.flatMap fun g => g.2.map UInt64.ofNat⟩ := by
    simp only [entriesFetch, e1, e2, fetched, x1, Option.bind_eq_bind, Option.bind_some, Option.pure_def]
  refine ⟨_, ee, ⟨ms, x2, x3, by simpa using x4⟩, ?_⟩
  intro hlen
  obtain ⟨y1, y2⟩ := shows_groups h _ hg hlen
  refine ⟨_, y1, ?_, y2, ?_⟩
  · rw [List.map_map]
    have : ((fun x : Nat × List UInt64 => x.1) ∘ fun g : Nat × List Nat => (2 ^ 63 + g.1, g.2.map UInt64.ofNat))
        = (fun n => 2 ^ 63 + n) ∘ Prod.fst := rfl
    rw [this, ← List.map_map, List.pairwise_map]
    exact hp2.imp fun hab => by omega
  · intro g G hG
    obtain ⟨x, hx, rfl⟩ := List.mem_map.1 (hg2 g G hG)
    rw [List.map_map]
    exact List.mem_map.2 ⟨x, hx, rfl⟩

/-- What fetching one member returns. -/
def OneMember (inf : Info) (s : PState ι (KeyOf kind) Act) (h : UInt64) : Option Fetched → Prop
  | none => s.mem h.toNat = none
  | some f => ∃ a id b, s.mem h.toNat = some a ∧ Means inf id b a ∧ f.numMembers = 1 ∧
      readMembers 1 f.members = some [(h.toNat, id, b)] ∧ f.numGroups = 0 ∧ f.groups = [] ∧ f.handles = []

/-- What fetching one group returns. -/
def OneGroup (s : PState ι (KeyOf kind) Act) (h : UInt64) : Option Fetched → Prop
  | none => s.grp (h.toNat - 2 ^ 63) = none
  | some f => ∃ G l, s.grp (h.toNat - 2 ^ 63) = some G ∧ f.numGroups = 1 ∧
      readGroups f.handles 1 f.groups = some [(h.toNat, l)] ∧ Lists (l.map UInt64.toNat) G ∧
      f.numMembers = 0 ∧ f.members = []

theorem fetch_member {inf : Info} (hi : inf.Ok) (h : PRep st s Sm Sg) (ha : AllMean inf s) (hd : UInt64)
    (hh : IsMbr hd) : ∃ o, mbrFetch inf st hd = some o ∧ OneMember inf s hd o := by
  obtain ⟨o1, st1, e1, s1, _, _, _, ⟨-, hs⟩, _⟩ := h.getMember hd.toNat
  simp only [ISys.exec, Option.map_eq_some_iff, Prod.mk.injEq] at e1
  obtain ⟨x, e1, e2, -⟩ := e1
  rcases hs with ⟨hm, rfl⟩ | ⟨a, hm, rfl⟩
  · cases x with
    | some a => cases e2
    | none => exact ⟨none, by simp only [mbrFetch, hdl_mbr hh, e1, Option.bind_eq_bind, Option.bind_some,
        Option.pure_def], hm⟩
  · cases x with
    | none => cases e2
    | some a' =>
      cases e2
      obtain ⟨b, hb⟩ := ha _ _ hm
      have hlt := h.fits (r := .mbr hd.toNat) (by simp [PState.Has, hm])
      simp only [refId] at hlt
      obtain ⟨e, he, hr⟩ := emit_read_member hi (show hd.toNat < 2 ^ 64 by omega) hb
      have hr' : readMembers 1 e = some [(hd.toNat, a.id, b)] := by
        have := hr []
        rw [List.append_nil] at this
        simp only [readMembers, this, Option.bind_eq_bind, Option.bind_some]
      have ee : mbrFetch inf st hd = some (some ⟨1, e, 0, [], []⟩) := by
        simp only [mbrFetch, hdl_mbr hh, e1, fetched, emitMembers, he, Option.bind_eq_bind,
          Option.bind_some, Option.pure_def, List.append_nil]
        rfl
      exact ⟨_, ee, a, a.id, b, hm, hb, rfl, hr', rfl, rfl, rfl⟩

theorem fetch_group {inf : Info} (h : PRep st s Sm Sg) (hd : UInt64)
    (hh : IsGrp hd) : ∃ o, grpFetch inf st hd = some o ∧ OneGroup s hd o := by
  obtain ⟨o1, st1, e1, s1, _, _, _, ⟨-, hs⟩, _⟩ := h.getGroup (hd.toNat - 2 ^ 63)
  simp only [ISys.exec, Option.map_eq_some_iff, Prod.mk.injEq] at e1
  obtain ⟨x, e1, e2, -⟩ := e1
  rcases hs with ⟨hm, rfl⟩ | ⟨G, l, hm, rfl, hl⟩
  · cases x with
    | some a => cases e2
    | none => exact ⟨none, by simp only [grpFetch, hdl_grp hh, e1, Option.bind_eq_bind, Option.bind_some,
        Option.pure_def], hm⟩
  · cases x with
    | none => cases e2
    | some l' =>
      cases e2
      have hlen : l.length < 2 ^ 32 := by
        have hb := members_lt h hm hl
        have hnd : l.Nodup := hl.1.imp fun hab => by omega
        revert hb
        generalize hB : 2 ^ 24 = B
        intro hb
        have hsub : l.toFinset ⊆ Finset.range B := by
          intro x hx; exact Finset.mem_range.2 (hb x (List.mem_toFinset.1 hx))
        have := Finset.card_le_card hsub
        rw [List.toFinset_card_of_nodup hnd, Finset.card_range] at this
        exact Nat.lt_of_le_of_lt (hB ▸ this) (by decide)
      have hd' := hdl_grp hh
      obtain ⟨g, hg, hge⟩ := hh
      have ee : 2 ^ 63 + (hd.toNat - 2 ^ 63) = hd.toNat := by omega
      generalize hq : hd.toNat - 2 ^ 63 = q at *
      obtain ⟨y1, y2⟩ := shows_groups h [(q, l)] (by
        rintro g x hx
        simp only [List.mem_singleton, Prod.mk.injEq] at hx
        obtain ⟨rfl, rfl⟩ := hx
        exact ⟨G, hm, hl⟩) (by simpa using hlen)
      simp only [List.map_cons, List.map_nil, ee, List.length_singleton] at y1 y2
      obtain ⟨g', G', z1, z2, z3⟩ := y2 _ _ (List.mem_singleton.2 rfl)
      have hgq : g' = q := by omega
      rw [hgq, hm] at z2; cases z2
      have e3 : grpFetch inf st hd = some (some ⟨0, [], 1, emitGroups 0 [(q, l)],
          [(q, l)].flatMap fun g => g.2.map UInt64.ofNat⟩) := by
        simp only [grpFetch, hd', e1, fetched, emitMembers, Option.bind_eq_bind,
          Option.bind_some, Option.pure_def]
        rfl
      exact ⟨some _, e3, by show OneGroup s hd (some _); unfold OneGroup; rw [hq]; exact ⟨G, _, hm, rfl, y1, z3, rfl, rfl⟩⟩

/-- **C94 (part).**  Calls through PI with proper handles and data, mixed with operations by others:
every call does to the profile what it says and returns the handle or the status that belongs to it;
afterwards, fetching everything shows exactly the members with the data they were given and the groups
with their members, and fetching one member or group shows that one, or fails exactly when there is none.

Missing from the full property: handles of the wrong kind are not rejected
(`C94_refuted_group_as_member`, `C94_refuted_high_bits`), and with 2^32 or more members in all groups
together the offsets in the result would not fit (unlimited here for fetching one group). -/
theorem C94_partial {inf : Info} (hi : inf.Ok) (hn : Fintype.card ι ≤ 254) (size sizeKey : ι → Nat)
    (hs : ∀ i, size i ≤ 2 ^ 24) (meters : Nat → R) (const : ι → Bool) (es : List (Ev ι (KeyOf kind)))
    (hf : Fits inf (ISys.fresh kind R Act size sizeKey meters const) es) :
    ∃ os st s, run inf (ISys.fresh kind R Act size sizeKey meters const) es = some (os, st) ∧
      Trace inf (ISys.fresh kind R Act size sizeKey meters const).cfg PState.empty es os s ∧
      (∃ f, entriesFetch inf st = some f ∧ ShowsMembers inf s f.numMembers f.members ∧
        (f.handles.length < 2 ^ 32 → ShowsGroups s f.handles f.numGroups f.groups)) ∧
      (∀ h, IsMbr h → ∃ o, mbrFetch inf st h = some o ∧ OneMember inf s h o) ∧
      ∀ h, IsGrp h → ∃ o, grpFetch inf st h = some o ∧ OneGroup s h o := by
  obtain ⟨os, st, s, Sm, Sg, e, h, tr, ha⟩ :=
    run_good hn es (PRep.fresh size sizeKey hs meters const) (fun m a hx => by cases hx) hf
  exact ⟨os, st, s, e, tr, fetch_all hi h ha, fun _ hh => fetch_member hi h ha _ hh,
    fun _ hh => fetch_group h _ hh⟩

/-! ## Concrete cases -/

namespace Ex

/-- Action 7 has parameters of 9 and 8 bits, action 8 none. -/
def inf : Info := fun id => if id = 7 then some [9, 8] else if id = 8 then some [] else none

/-- One exact-match table (4 entries, one-byte keys). -/
def sys : ISys Unit (fun _ => .exact 1) Unit Act :=
  ISys.fresh _ _ _ (fun _ => 4) (fun _ => 1) (fun _ => ()) (fun _ => false)

/-- A group handle. -/
def grp (g : Nat) : UInt64 := UInt64.ofNat (2 ^ 63 + g)

/-- Two members, a group with both, an entry that uses it, refused and successful deletions. -/
def demo : List (Ev Unit (KeyOf fun _ => TableKind.exact 1)) :=
  [.pi (.mbrCreate 7 [1, 0x23, 0x45]), .pi (.mbrCreate 8 []), .pi .grpCreate, .pi .grpCreate,
   .pi (.grpAdd (grp 1) 1), .pi (.grpAdd (grp 1) 0), .sw (.tAdd () (some [5]) (.grp 1) 0),
   .pi (.mbrDelete 0), .pi (.grpDelete (grp 1)), .pi (.grpDelete (grp 0)), .pi (.mbrDelete 6),
   .pi (.mbrModify 0 7 [0, 0x99, 0x11])]

/-- Results that can be compared. -/
def seen : Res ⊕ POut Unit (KeyOf fun _ => TableKind.exact 1) Act → Option Res
  | .inl r => some r
  | .inr _ => none

example : (run inf sys demo).map (fun x => x.1.map seen) = some [some (.handle 0), some (.handle 1),
    some (.handle (grp 0)), some (.handle (grp 1)), some .ok, some .ok, none, some (.error .inUse),
    some (.error .inUse), some .ok, some (.error .noMember), some .ok] := by decide +kernel

example : ((run inf sys demo).bind fun x => entriesFetch inf x.2).bind
    (fun f => readMembers f.numMembers f.members) =
    some [(0, 7, [0, 0x99, 0x11]), (1, 8, [])] := by decide +kernel

example : ((run inf sys demo).bind fun x => entriesFetch inf x.2).bind
    (fun f => readGroups f.handles f.numGroups f.groups) = some [(2 ^ 63 + 1, [0, 1])] := by decide +kernel

example : (((run inf sys demo).bind fun x => mbrFetch inf x.2 0).bind fun o => o.bind fun f =>
    readMembers f.numMembers f.members) = some [(0, 7, [0, 0x99, 0x11])] := by decide +kernel

example : ((run inf sys demo).bind fun x => grpFetch inf x.2 (grp 0)).map Option.isSome = some false := by
  decide +kernel

/-- Checks what of `Fits` depends on the state. -/
def fitsB : ISys Unit (fun _ => .exact 1) Unit Act → List (Ev Unit (KeyOf fun _ => TableKind.exact 1)) → Bool
  | _, [] => true
  | st, .pi c :: es => decide (st.prof.numMembers < 2 ^ 24) && decide (st.prof.numGroups < 2 ^ 24) &&
      match exec inf st c with
      | none => true
      | some (_, st') => fitsB st' es
  | st, .sw (.tAdd i (some k) r now) :: es => decide (k.length = 1) &&
      match st.exec (.tAdd i (some k) r now) with
      | none => true
      | some (.tab _ (.err _), _) => false
      | some (_, st') => fitsB st' es
  | _, _ => false

theorem fitsB_sound (es) : ∀ st, fitsB st es = true → (∀ c, Ev.pi c ∈ es → c.Proper inf) → Fits inf st es := by
  induction es with
  | nil => intro st _ _; trivial
  | cons e es ih =>
    intro st h hp
    have hp' : ∀ c, Ev.pi c ∈ es → c.Proper inf := fun c hc => hp c (by simp [hc])
    cases e with
    | pi c =>
      simp only [fitsB, Bool.and_eq_true, decide_eq_true_eq] at h
      refine ⟨hp c (by simp), ?_, ?_⟩
      · cases c <;> first | trivial | exact h.1.1 | exact h.1.2
      · intro r st' e
        rw [e] at h
        exact ih _ h.2 hp'
    | sw op =>
      cases op <;> try (simp [fitsB] at h)
      rename_i i key r now
      cases key with
      | none => simp [fitsB] at h
      | some k =>
        simp only [fitsB, Bool.and_eq_true, decide_eq_true_eq] at h
        refine ⟨h.1, trivial, trivial, ?_⟩
        intro o st' e
        rw [e] at h
        cases o with
        | tab j o => cases o <;> first | exact ⟨trivial, ih _ h.2 hp'⟩ | exact absurd h.2 (by simp)
        | _ => exact ⟨trivial, ih _ h.2 hp'⟩

theorem means7 (a b c : UInt8) : ∃ x, Means inf 7 [a, b, c] x :=
  ⟨⟨7, [(bytesNat [a, b] : Int), (bytesNat [c] : Int)]⟩, rfl, [9, 8], rfl,
    .cons (a := [a, b]) ⟨rfl, rfl⟩ (.cons (a := [c]) ⟨rfl, rfl⟩ .nil)⟩

theorem means8 : ∃ x, Means inf 8 [] x := ⟨⟨8, []⟩, rfl, [], rfl, .nil⟩

theorem isGrp0 : IsGrp (grp 0) := ⟨0, by decide, by decide⟩
theorem isGrp1 : IsGrp (grp 1) := ⟨1, by decide, by decide⟩

/-- `C94_partial` applies to the history. -/
theorem C94_case : inf.Ok ∧ Fits inf sys demo := by
  constructor
  · intro id ws h
    unfold inf at h
    split at h
    · cases h; subst id; decide
    · split at h
      · cases h; subst id; decide
      · cases h
  · refine fitsB_sound _ _ (by decide +kernel) ?_
    intro c hc
    simp only [demo, List.mem_cons, Ev.pi.injEq, reduceCtorEq, List.not_mem_nil, or_false, false_or] at hc
    have m (n : UInt64) (h : n.toNat < 2 ^ 32) : IsMbr n := h
    rcases hc with rfl | rfl | rfl | rfl | rfl | rfl | rfl | rfl | rfl | rfl | rfl
    · exact means7 _ _ _
    · exact means8
    · trivial
    · trivial
    · exact ⟨isGrp1, m _ (by decide)⟩
    · exact ⟨isGrp1, m _ (by decide)⟩
    · exact m _ (by decide)
    · exact isGrp1
    · exact isGrp0
    · exact m _ (by decide)
    · exact ⟨m _ (by decide), means7 _ _ _⟩

/-- A group's handle passed as a member's: member 0 is deleted. -/
theorem C94_refuted_group_as_member :
    ((run inf sys [.pi (.mbrCreate 8 []), .pi .grpCreate, .pi (.mbrDelete (grp 0))]).map fun x =>
      (x.1.map seen, x.2.prof.numMembers)) =
    some ([some (.handle 0), some (.handle (grp 0)), some .ok], 0) := by decide +kernel

/-- A handle that was never given out, with bit 32 set: member 0 is changed. -/
theorem C94_refuted_high_bits :
    ((run inf sys [.pi (.mbrCreate 8 []), .pi (.mbrModify 0x100000000 7 [0, 1, 2])]).bind fun x =>
      (entriesFetch inf x.2).bind fun f => (readMembers f.numMembers f.members).map fun l =>
        (x.1.map seen, l)) =
    some ([some (.handle 0), some .ok], [(0, 7, [0, 1, 2])]) := by decide +kernel

end Ex

end Bm.PiAct
