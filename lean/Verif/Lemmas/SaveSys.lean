import Verif.Lemmas.SaveProfile

/-! Restoring an action profile together with its tables. -/

set_option linter.unusedSectionVars false

namespace Bm.Save
open Spec
variable {D : Type}

/-! ## The width of the key does not change -/

section unit
variable {t : TableKind} {V R : Type} {mu mu' : MUnit t.str V R}

theorem add_key {key v now o} (e : mu.exec (.add key v now) = some (o, mu')) : mu'.sizeKey = mu.sizeKey := by
  simp only [MUnit.exec, Option.map_eq_some_iff] at e
  obtain ⟨⟨x, m⟩, e, e2⟩ := e
  obtain rfl := congrArg Prod.snd e2
  show m.sizeKey = _
  simp only [MUnit.addEntry] at e
  split at e
  · cases e; rfl
  split at e
  · cases e; rfl
  simp only [Option.bind_eq_bind] at e
  obtain ⟨ex, -, e⟩ := Option.bind_eq_some_iff.1 e
  split at e
  · cases e; rfl
  split at e
  · cases e; rfl
  obtain ⟨y, -, e⟩ := Option.bind_eq_some_iff.1 e
  split at e
  · obtain ⟨ls, -, e⟩ := Option.bind_eq_some_iff.1 e
    split at e
    · cases e; rfl
    · cases e
  · cases e

theorem delete_key {h o} (e : mu.exec (.delete h) = some (o, mu')) : mu'.sizeKey = mu.sizeKey := by
  simp only [MUnit.exec, Option.map_eq_some_iff] at e
  obtain ⟨⟨x, m⟩, e, e2⟩ := e
  obtain rfl := congrArg Prod.snd e2
  show m.sizeKey = _
  simp only [MUnit.deleteEntry, Option.bind_eq_bind] at e
  obtain ⟨c, -, e⟩ := Option.bind_eq_some_iff.1 e
  split at e
  · cases e; rfl
  obtain ⟨kv, -, e⟩ := Option.bind_eq_some_iff.1 e
  obtain ⟨ls, -, e⟩ := Option.bind_eq_some_iff.1 e
  obtain ⟨y, -, e⟩ := Option.bind_eq_some_iff.1 e
  split at e
  · cases e; rfl
  · cases e; rfl

theorem modify_key {h v o} (e : mu.exec (.modify h v) = some (o, mu')) : mu'.sizeKey = mu.sizeKey := by
  simp only [MUnit.exec, Option.map_eq_some_iff] at e
  obtain ⟨⟨x, m⟩, e, e2⟩ := e
  obtain rfl := congrArg Prod.snd e2
  show m.sizeKey = _
  simp only [MUnit.modifyEntry, Option.bind_eq_bind] at e
  obtain ⟨c, -, e⟩ := Option.bind_eq_some_iff.1 e
  split at e
  · cases e; rfl
  obtain ⟨kv, -, e⟩ := Option.bind_eq_some_iff.1 e
  cases e; rfl

theorem lookup_key {q n ts o} (e : mu.exec (.lookup q n ts) = some (o, mu')) : mu'.sizeKey = mu.sizeKey := by
  simp only [MUnit.exec, Option.map_eq_some_iff] at e
  obtain ⟨⟨x, m⟩, e, e2⟩ := e
  obtain rfl := congrArg Prod.snd e2
  show m.sizeKey = _
  simp only [MUnit.lookup, Option.bind_eq_bind] at e
  obtain ⟨c, -, e⟩ := Option.bind_eq_some_iff.1 e
  split at e
  · cases e; rfl
  · split at e
    · obtain ⟨kv, -, e⟩ := Option.bind_eq_some_iff.1 e
      split at e
      · cases e; rfl
      · cases e
    · cases e

end unit

section sys
variable {ι : Type} [DecidableEq ι] {kind : ι → TableKind} {R A : Type} {s s' : ISys ι kind R A}

/-- Width of the key of a table. -/
def keyW (s : ISys ι kind R A) (i : ι) : Nat := (s.tabs i).mu.sizeKey

theorem keyW_upd (i : ι) (T : ITab (kind i).str R) (h : T.mu.sizeKey = keyW s i) :
    keyW { s with tabs := upd s.tabs i T } = keyW s := by
  funext j
  by_cases hj : j = i
  · subst hj; simp only [keyW, upd_self]; exact h
  · simp only [keyW, upd_ne _ _ _ hj]

theorem keyW_setMu (i : ι) (mu : MUnit (kind i).str Nat R) (h : mu.sizeKey = keyW s i) : keyW (s.setMu i mu) = keyW s :=
  keyW_upd i _ h

theorem exec_keyW {op : POp ι (KeyOf kind) A} {out} (e : s.exec op = some (out, s')) : keyW s' = keyW s := by
  cases op with
  | tAdd i key r now =>
    simp only [ISys.exec, ISys.tAdd, Option.bind_eq_bind] at e
    obtain ⟨x, -, e⟩ := Option.bind_eq_some_iff.1 e
    cases x with
    | some x => cases e; rfl
    | none =>
      obtain ⟨w, -, e⟩ := Option.bind_eq_some_iff.1 e
      obtain ⟨rc, -, e⟩ := Option.bind_eq_some_iff.1 e
      obtain ⟨⟨o, mu⟩, e1, e⟩ := Option.bind_eq_some_iff.1 e
      cases e
      exact keyW_setMu (s := s.setRc rc) i mu (add_key e1)
  | tDel i h =>
    simp only [ISys.exec, ISys.tDel, Option.bind_eq_bind] at e
    obtain ⟨x, -, e⟩ := Option.bind_eq_some_iff.1 e
    split at e
    · obtain ⟨rc, -, e⟩ := Option.bind_eq_some_iff.1 e
      obtain ⟨⟨o, mu⟩, e1, e⟩ := Option.bind_eq_some_iff.1 e
      cases e
      exact keyW_setMu (s := s.setRc rc) i mu (delete_key e1)
    · cases e; rfl
  | tMod i h r =>
    simp only [ISys.exec, ISys.tMod, Option.bind_eq_bind] at e
    obtain ⟨x, -, e⟩ := Option.bind_eq_some_iff.1 e
    split at e
    · obtain ⟨rc, -, e⟩ := Option.bind_eq_some_iff.1 e
      obtain ⟨y, -, e⟩ := Option.bind_eq_some_iff.1 e
      cases y with
      | some y => cases e; rfl
      | none =>
        obtain ⟨w, -, e⟩ := Option.bind_eq_some_iff.1 e
        obtain ⟨rc', -, e⟩ := Option.bind_eq_some_iff.1 e
        obtain ⟨⟨o, mu⟩, e1, e⟩ := Option.bind_eq_some_iff.1 e
        cases e
        exact keyW_setMu (s := s.setRc rc') i mu (modify_key e1)
    · cases e; rfl
  | tGet i h =>
    simp only [ISys.exec, ISys.tGet, Option.bind_eq_bind] at e
    obtain ⟨x, -, e⟩ := Option.bind_eq_some_iff.1 e
    cases e; rfl
  | tLookup i q nb ts hash =>
    simp only [ISys.exec, ISys.tLookup, Option.bind_eq_bind] at e
    obtain ⟨⟨o, mu⟩, e1, e⟩ := Option.bind_eq_some_iff.1 e
    have hk := keyW_setMu (s := s) i mu (lookup_key e1)
    split at e
    · obtain ⟨a, -, e⟩ := Option.bind_eq_some_iff.1 e
      cases e; exact hk
    · split at e
      · obtain ⟨a, -, e⟩ := Option.bind_eq_some_iff.1 e
        cases e; exact hk
      · cases e; exact hk
  | setDflt i r =>
    simp only [ISys.exec, ISys.setDflt, Option.bind_eq_bind] at e
    split at e
    · cases e; rfl
    obtain ⟨v, -, e⟩ := Option.bind_eq_some_iff.1 e
    split at e
    · cases e; rfl
    obtain ⟨rc, -, e⟩ := Option.bind_eq_some_iff.1 e
    obtain ⟨w, -, e⟩ := Option.bind_eq_some_iff.1 e
    obtain ⟨rc', -, e⟩ := Option.bind_eq_some_iff.1 e
    cases e
    exact keyW_upd (s := s.setRc rc') i _ rfl
  | unsetDflt i =>
    simp only [ISys.exec, ISys.unsetDflt, Option.bind_eq_bind] at e
    obtain ⟨rc, -, e⟩ := Option.bind_eq_some_iff.1 e
    cases e
    exact keyW_upd (s := s.setRc rc) i _ rfl
  | clear i d =>
    simp only [ISys.exec] at e
    cases e
    exact keyW_upd i _ rfl
  | resetAll =>
    simp only [ISys.exec] at e
    cases e
    rfl
  | counts => cases e; rfl
  | _ =>
    simp only [ISys.exec, Option.map_eq_some_iff] at e
    obtain ⟨x, -, e⟩ := e
    cases e; rfl

theorem run_keyW : ∀ (ops : List (POp ι (KeyOf kind) A)) {s s' : ISys ι kind R A} {outs}, s.run ops = some (outs, s') →
    keyW s' = keyW s
  | [], s, s', outs, e => by cases e; rfl
  | op :: ops, s, s', outs, e => by
    simp only [ISys.run, Option.bind_eq_bind] at e
    obtain ⟨x, e1, e⟩ := Option.bind_eq_some_iff.1 e
    obtain ⟨y, e2, e⟩ := Option.bind_eq_some_iff.1 e
    cases e
    rw [run_keyW ops e2, exec_keyW e1]

end sys

/-! ## What histories leave in the state -/

section spec
variable {ι : Type} [DecidableEq ι] {K : ι → Type} {A : Type}

/-- Calls that write only actions with the property. -/
def PWrites (Q : A → Prop) : POp ι K A → Prop
  | .addMember a => ∀ x, a = some x → Q x
  | .modMember _ a => ∀ x, a = some x → Q x
  | _ => True

/-- The actions satisfy `Q`, and tables without keys are empty. -/
def Fine (c : PCfg ι K) (Q : A → Prop) (s : PState ι K A) : Prop :=
  (∀ m a, s.mem m = some a → Q a) ∧ ∀ i, c.keyless i = true → ∀ h, s.tab i h = none

variable {c : PCfg ι K} {Q : A → Prop} {s s' : PState ι K A}

theorem Fine.setMem (h : Fine c Q s) (m : Nat) (x : Option A) (hx : ∀ a, x = some a → Q a) :
    Fine c Q { s with mem := fun y => if y = m then x else s.mem y } := by
  refine ⟨?_, h.2⟩
  intro y a hy
  simp only at hy
  split at hy
  · exact hx a hy
  · exact h.1 y a hy

theorem Fine.setTab (h : Fine c Q s) (i : ι) (T' : Nat → Option (K i × Ref)) {op o}
    (st : TStep (c.sp i) (c.size i) (c.keyless i) (s.tab i) op T' o) : Fine c Q { s with tab := upd s.tab i T' } := by
  refine ⟨h.1, ?_⟩
  intro j hj hd
  by_cases hji : j = i
  · subst hji
    simp only [upd_self]
    rw [hj] at st
    exact keyless_step st (h.2 j hj) hd
  · simp only [upd_ne _ _ _ hji]; exact h.2 j hj hd

theorem Fine.step (h : Fine c Q s) {op : POp ι K A} {out} (hw : PWrites Q op) (st : PStep c s op s' out) : Fine c Q s' := by
  cases op with
  | addMember a =>
    cases a with
    | none => rw [st.2]; exact h
    | some a =>
      obtain ⟨m, -, -, rfl⟩ := st
      exact h.setMem m (some a) hw
  | delMember m =>
    rcases st with ⟨-, -, rfl⟩ | ⟨-, -, -, rfl⟩ | ⟨-, -, -, rfl⟩
    · exact h
    · exact h
    · exact h.setMem m none (by simp)
  | modMember m a =>
    cases a with
    | none => rw [st.2]; exact h
    | some a =>
      rcases st with ⟨-, -, rfl⟩ | ⟨-, -, rfl⟩
      · exact h
      · exact h.setMem m (some a) hw
  | newGroup => obtain ⟨g, -, -, rfl⟩ := st; exact h
  | delGroup g => rcases st with ⟨-, -, rfl⟩ | ⟨-, -, -, rfl⟩ | ⟨-, -, -, rfl⟩ <;> exact h
  | join m g =>
    rcases st with ⟨-, -, rfl⟩ | ⟨-, -, -, rfl⟩ | ⟨G, -, -, ⟨-, -, rfl⟩ | ⟨-, -, rfl⟩⟩ <;> exact h
  | leave m g =>
    rcases st with ⟨-, -, rfl⟩ | ⟨-, -, -, rfl⟩ | ⟨G, -, -, ⟨-, -, rfl⟩ | ⟨-, -, rfl⟩⟩ <;> exact h
  | getMember m => rw [st.1]; exact h
  | getMembers => rw [st.1]; exact h
  | getGroup g => rw [st.1]; exact h
  | getGroups => rw [st.1]; exact h
  | counts => rw [st.1]; exact h
  | tAdd i key r now =>
    rcases st with ⟨e, -, -, rfl⟩ | ⟨-, T', o, st, -, rfl⟩
    · exact h
    · exact h.setTab i T' st
  | tDel i hd => obtain ⟨T', o, st, -, rfl⟩ := st; exact h.setTab i T' st
  | tMod i hd r =>
    rcases st with ⟨e, -, -, -, rfl⟩ | ⟨-, T', o, st, -, rfl⟩
    · exact h
    · exact h.setTab i T' st
  | tGet i hd => obtain ⟨o, -, -, rfl⟩ := st; exact h
  | tLookup i q nb ts hash => rw [st.1]; exact h
  | setDflt i r => rcases st with ⟨-, -, rfl⟩ | ⟨-, -, -, rfl⟩ | ⟨-, -, -, rfl⟩ <;> exact h
  | unsetDflt i => rw [st.2]; exact h
  | clear i d =>
    rw [st.2]
    refine ⟨h.1, ?_⟩
    intro j hj hd
    by_cases hji : j = i
    · subst hji; simp only [upd_self]
    · simp only [upd_ne _ _ _ hji]; exact h.2 j hj hd
  | resetAll => rw [st.2]; exact ⟨by simp [PState.empty], by simp [PState.empty]⟩

theorem Fine.trace {ops : List (POp ι K A)} {outs} (tr : PTrace c s ops outs s') (h : Fine c Q s)
    (hw : ∀ op ∈ ops, PWrites Q op) : Fine c Q s' := by
  induction tr with
  | nil => exact h
  | cons st tr ih => exact ih (h.step (hw _ (by simp)) st) (fun o ho => hw o (by simp [ho]))

end spec
/-! ## Tables -/

section tab
variable {t : TableKind} {R : Type}

theorem restore_itab (hc : Copies t) {T : ITab t.str R} {Ts d} (h : TabRep T Ts d) (hn : T.mu.sizeKey = nbytes t)
    (hp : T.mu.sizeKey = 0 → ∀ hd, Ts hd = none) (m0 : Nat → R) {o : Objs} {name : List Char} (hname : name ≠ [])
    {miss : Option Nat} (hmiss : ∀ i, miss = some i → o.NodeOk i) {mio : MeterIO D R} {rt : R → R → R} (hm : mio.Round rt)
    (now : Nat) :
    ∃ ts T2, saveITab o name miss mio T = some ts ∧
      (∀ rest, loadITab o name miss mio now
        ({ mu := MUnit.init t.str Nat T.mu.size T.mu.sizeKey m0, constDefault := T.constDefault } : ITab t.str R) (ts ++ rest) =
          some ({ T2 with mu := zU true T2.mu }, rest)) ∧
      TabRep T2 Ts d ∧ T2.mu.size = T.mu.size ∧ T2.mu.sizeKey = T.mu.sizeKey ∧ T2.constDefault = T.constDefault ∧
      ((∀ hd, slotOf hd = 0 → Ts hd = none) → zU true T2.mu = T2.mu) ∧
      (∀ i < T.mu.size, T2.mu.meters i = rt (m0 i) (T.mu.meters i)) ∧
      (∀ hd, (Ts hd).isSome = true → T2.mu.metas (slotOf hd) =
        { ts := now, timeoutMs := (T.mu.metas (slotOf hd)).timeoutMs, version := (T.mu.metas (slotOf hd)).version }) := by
  obtain ⟨E, hr, hTs, hw, hdf⟩ := h
  have hE : ∀ i kv, E i = some kv → ∃ hd, slotOf hd = i ∧ (Ts hd).isSome = true := by
    intro i kv hi
    have hlt := hr.lt24 hi
    refine ⟨handleSet (T.mu.entries i).version i, by rw [slotOf_eq, handleInternal_set _ _ hlt], ?_⟩
    rw [hTs, mapT_isSome, hr.tab_set hlt, hi]; rfl
  obtain ⟨u, mu2, e1, e2, hR⟩ := restore_unit (D := D) hc (by
      intro h0 i
      cases hi : E i with
      | none => rfl
      | some kv =>
        obtain ⟨hd, -, h2⟩ := hE i kv hi
        simp [hp h0 hd] at h2) hn hr m0 (idxIO D) (fun i k v _ => ⟨[.num v], rfl, fun rest => rfl⟩) mio rt hm now
  refine ⟨putWord name ++ saveNode o miss ++ u ++ [.num (if T.defaultSet then 1 else 0)] ++
    (if T.defaultSet then [.num T.defaultIndex] else []),
    ⟨mu2, T.defaultSet, if T.defaultSet then T.defaultIndex else 0, T.constDefault⟩,
    by simp only [saveITab, e1, Option.bind_eq_bind, Option.bind_some, Option.pure_def], ?_, ?_, hR.size, hR.sizeKey, rfl, ?_,
    hR.meters, ?_⟩
  · intro rest
    rw [putWord_of hname]
    simp only [loadITab, List.append_assoc, List.cons_append, List.nil_append, readWord, Option.bind_eq_bind,
      Option.bind_some, ne_eq, not_true_eq_false, if_false, loadNode_save o miss miss hmiss, e2]
    cases hds : T.defaultSet with
    | false => simp [readBool, readNum, loadIdx, zU, z, zH]
    | true => simp [readBool, readNum, loadIdx, zU, z, zH]
  · refine ⟨E, hR.rep, ?_, ?_, ?_⟩
    · show Ts = mapT (mu2.tab E); rw [hR.tab, hTs]
    · show ∀ hd key w, mu2.tab E hd = some (key, w) → _; rw [hR.tab]; exact hw
    · rcases hdf with ⟨h1, h2⟩ | ⟨r, h1, h2, h3, h4⟩
      · exact .inl ⟨h1, h2⟩
      · exact .inr ⟨r, h1, h2, by simp only [h1, if_true]; exact h3, h4⟩
  · intro hfree
    refine hR.free ?_
    cases hi : E 0 with
    | none => rfl
    | some kv =>
      obtain ⟨hd, h1, h2⟩ := hE 0 kv hi
      simp [hfree hd h1] at h2
  · intro hd hs
    rw [hTs, mapT_isSome] at hs
    obtain ⟨kv, hkv⟩ := Option.isSome_iff_exists.1 hs
    have := (hr.tab_some hkv).1
    rw [slotOf_eq]
    exact hR.meta' _ (by rw [this]; rfl)

end tab

/-! ## The whole -/

section whole
variable {ι : Type} [DecidableEq ι] {kind : ι → TableKind} {R A : Type}

theorem loadTabs_ok (nm : TabNames ι) (mio : MeterIO D R) (now : Nat) (T0 T2 : ∀ i, ITab (kind i).str R)
    (txt : ι → List (Tok D))
    (h : ∀ i rest, loadITab nm.o (nm.name i) (nm.miss i) mio now (T0 i) (txt i ++ rest) = some (T2 i, rest)) :
    ∀ (order : List ι), order.Nodup → ∀ (s : ISys ι kind R A), (∀ i ∈ order, s.tabs i = T0 i) → ∀ rest,
    loadTabs nm mio now order s ((order.map txt).flatten ++ rest) =
      some ({ s with tabs := fun i => if i ∈ order then T2 i else s.tabs i }, rest)
  | [], _, s, _, rest => by simp [loadTabs]
  | i :: is, hnd, s, hs, rest => by
    have hi : i ∉ is := (List.nodup_cons.1 hnd).1
    simp only [List.map_cons, List.flatten_cons, List.append_assoc, loadTabs, hs i (by simp), h, Option.bind_eq_bind,
      Option.bind_some]
    rw [loadTabs_ok nm mio now T0 T2 txt h is (List.nodup_cons.1 hnd).2 _ (by
      intro j hj
      have : j ≠ i := fun e => hi (e ▸ hj)
      simp only [upd_ne _ _ _ this]
      exact hs j (by simp [hj])) rest]
    simp only [Option.some.injEq, Prod.mk.injEq, and_true]
    rw [ISys.mk.injEq]
    refine ⟨rfl, ?_⟩
    funext j
    by_cases hj : j = i
    · subst hj; simp [hi, upd_self]
    · by_cases hjs : j ∈ is
      · simp [hjs]
      · simp [hj, hjs, upd_ne _ _ _ hj]

theorem mapM_const {α β : Type} (f : α → Option β) (g : α → β) : ∀ (l : List α), (∀ x, f x = some (g x)) →
    l.mapM f = some (l.map g)
  | [], _ => rfl
  | x :: l, h => by rw [List.mapM_cons, h x, mapM_const f g l h]; rfl

variable [Fintype ι] {st : ISys ι kind R A} {s : PState ι (KeyOf kind) A} {Sm Sg : Finset Nat}

theorem savable (h : PRep st s Sm Sg) {io : EntIO D A} (hg : ∀ m a, s.mem m = some a → io.Good a) :
    Savable io st.prof Sm Sg where
  hm := h.hm
  nm := h.nm
  mlt m hm := (h.mlt m hm).1
  good m hm a ha := hg m a (by rw [h.mem, if_pos hm]; exact ha)
  hg := h.hg
  ng := h.ng
  glt g hg := (h.glt g hg).1
  sorted := h.sorted

theorem rep_zero {m : HandleMgr} {S : Finset Nat} (h : m.Rep S) (h0 : 0 ∉ S) : m.firstUnset = 0 := by
  rcases Nat.eq_zero_or_pos m.firstUnset with h1 | h1
  · exact h1
  · exact absurd (h.least 0 h1) h0

/-- What the environment must provide, and the state from which the restore starts. -/
structure Env (nm : TabNames ι) (order : List ι) (st0 st : ISys ι kind R A) (m0 : Nat → R) : Prop where
  name : ∀ i, nm.name i ≠ []
  node : ∀ i n, nm.miss i = some n → nm.o.NodeOk n
  nodup : order.Nodup
  all : ∀ i, i ∈ order
  prof : st0.prof = {}
  tabs : ∀ i, st0.tabs i =
    { mu := MUnit.init (kind i).str Nat (st.tabs i).mu.size (st.tabs i).mu.sizeKey m0, constDefault := (st.tabs i).constDefault }

variable {nm : TabNames ι} {order : List ι} {st0 : ISys ι kind R A} {m0 : Nat → R} {io : EntIO D A} {mio : MeterIO D R}
  {rt : R → R → R}

theorem restore_tabs (hc : ∀ i, Copies (kind i)) (h : PRep st s Sm Sg) (hn : ∀ i, (st.tabs i).mu.sizeKey = nbytes (kind i))
    (hp : ∀ i, (st.tabs i).mu.sizeKey = 0 → ∀ hd, s.tab i hd = none) (he : Env nm order st0 st m0) (hm : mio.Round rt)
    (now : Nat) :
    ∃ (txt : List (List (Tok D))) (T2 : ∀ i, ITab (kind i).str R), order.mapM (fun i => saveITab nm.o (nm.name i) (nm.miss i) mio (st.tabs i)) = some txt ∧
      (∀ rest, loadTabs nm mio now order st0 (txt.flatten ++ rest) =
        some (({ prof := {}, tabs := fun i => { T2 i with mu := zU true (T2 i).mu } } : ISys ι kind R A), rest)) ∧
      ∀ i, TabRep (T2 i) (s.tab i) (s.dflt i) ∧ (T2 i).mu.size = (st.tabs i).mu.size ∧
        (T2 i).mu.sizeKey = (st.tabs i).mu.sizeKey ∧ (T2 i).constDefault = (st.tabs i).constDefault ∧
        ((∀ hd, slotOf hd = 0 → s.tab i hd = none) → zU true (T2 i).mu = (T2 i).mu) ∧
        (∀ j < (st.tabs i).mu.size, (T2 i).mu.meters j = rt (m0 j) ((st.tabs i).mu.meters j)) ∧
        (∀ hd, (s.tab i hd).isSome = true → (T2 i).mu.metas (slotOf hd) =
          { ts := now, timeoutMs := ((st.tabs i).mu.metas (slotOf hd)).timeoutMs,
            version := ((st.tabs i).mu.metas (slotOf hd)).version }) := by
  have := fun i => restore_itab (D := D) (hc i) (h.tabs i) (hn i) (hp i) m0 (he.name i) (he.node i) hm now
  choose txt T2 e1 e2 H using this
  refine ⟨order.map txt, T2, mapM_const _ txt order e1, ?_, H⟩
  intro rest
  rw [loadTabs_ok nm mio now st0.tabs (fun i => { T2 i with mu := zU true (T2 i).mu }) txt (by
    intro i rest; rw [he.tabs]; exact e2 i rest) order he.nodup st0 (fun _ _ => rfl) rest]
  simp only [Option.some.injEq, Prod.mk.injEq, and_true]
  rw [ISys.mk.injEq]
  refine ⟨he.prof, ?_⟩
  funext i
  simp [he.all i]

theorem restore_sys (hc : ∀ i, Copies (kind i)) (h : PRep st s Sm Sg) (hn : ∀ i, (st.tabs i).mu.sizeKey = nbytes (kind i))
    (hp : ∀ i, (st.tabs i).mu.sizeKey = 0 → ∀ hd, s.tab i hd = none) (he : Env nm order st0 st m0) (hm : mio.Round rt)
    (hg : ∀ m a, s.mem m = some a → io.Good a) (hd : NoGap Sg) (now : Nat) :
    ∃ ts st2, saveSys nm order io mio st = some ts ∧
      (∀ rest, loadSys nm order io mio now st0 (ts ++ rest) = some (zS true true (fun _ => true) st2, rest)) ∧
      PRep st2 s Sm Sg ∧ st2.cfg = st.cfg ∧
      (∀ i, (∀ hd, slotOf hd = 0 → s.tab i hd = none) → zU true (st2.tabs i).mu = (st2.tabs i).mu) ∧
      (∀ i, ∀ j < (st.tabs i).mu.size, (st2.tabs i).mu.meters j = rt (m0 j) ((st.tabs i).mu.meters j)) ∧
      (∀ i hd, (s.tab i hd).isSome = true → (st2.tabs i).mu.metas (slotOf hd) =
          { ts := now, timeoutMs := ((st.tabs i).mu.metas (slotOf hd)).timeoutMs,
            version := ((st.tabs i).mu.metas (slotOf hd)).version }) := by
  obtain ⟨txt, T2, e1, e2, H⟩ := restore_tabs hc h hn hp he hm now
  obtain ⟨ts, q, e3, e4, hq⟩ := restore_prof (savable h hg) hd
  refine ⟨txt.flatten ++ ts, ⟨q, T2⟩, ?_, ?_, ?_, ?_, fun i => (H i).2.2.2.2.1, fun i => (H i).2.2.2.2.2.1,
    fun i => (H i).2.2.2.2.2.2⟩
  · simp only [saveSys, e1, e3, Option.bind_eq_bind, Option.bind_some, Option.pure_def]
  · intro rest
    simp only [loadSys, List.append_assoc, e2, e4, Option.bind_eq_bind, Option.bind_some, Option.pure_def]
    rfl
  · have hr := noGap_range hd
    refine
      { nol := fun _ _ => rfl, sel := hq.sel, hm := hq.hm, nm := hq.nm.trans h.nm, mlt := ?_, mlen := ?_, mem := ?_, hg := hq.hg,
        ng := hq.ng.trans h.ng, glt := ?_, glen := ?_, grp := ?_, sorted := ?_, tabs := fun i => (H i).1,
        closed := h.closed, cnt := ?_ }
    · intro m hm; rw [hq.len]; exact h.mlt m hm
    · show q.rc.mbr.length = q.entries.length; rw [hq.rc, hq.len]; exact h.mlen
    · intro m
      rw [h.mem]
      by_cases hm : m ∈ Sm
      · rw [if_pos hm, if_pos hm]; exact (hq.ent m hm).symm
      · rw [if_neg hm, if_neg hm]
    · intro g hg
      refine ⟨?_, (h.glt g hg).2⟩
      show g < q.groups.length
      rw [hq.glen]; exact (hr g).1 hg
    · show q.groups.length ≤ q.rc.grp.length
      rw [hq.glen, hq.rc]
      refine Nat.le_trans ?_ h.glen
      rcases Nat.eq_zero_or_pos Sg.card with h0 | h0
      · omega
      · have := (h.glt (Sg.card - 1) ((hr _).2 (by omega))).1; omega
    · intro g
      rw [h.grp]
      by_cases hg : g ∈ Sg
      · rw [if_pos hg, if_pos hg]; show _ = Option.map List.toFinset q.groups[g]?; rw [hq.grp g hg]
      · rw [if_neg hg, if_neg hg]
    · intro l hl
      obtain ⟨g, hlt, hgl⟩ := List.mem_iff_getElem.1 hl
      have hlt' : g < q.groups.length := hlt
      rw [hq.glen] at hlt'
      have := hq.grp g ((hr g).2 hlt')
      rw [List.getElem?_eq_getElem hlt] at this
      refine h.sorted l (List.mem_of_getElem? (i := g) ?_)
      rw [← this]; exact congrArg some hgl
    · intro r hr; show q.rc.at' r = _; rw [hq.rc]; exact h.cnt r hr
  · simp only [ISys.cfg, PCfg.mk.injEq, true_and]
    refine ⟨?_, ?_, ?_⟩
    · funext i; exact (H i).2.1
    · funext i; rw [(H i).2.2.1]
    · funext i; exact (H i).2.2.2.1

theorem restore_sys_hole (hc : ∀ i, Copies (kind i)) (h : PRep st s Sm Sg)
    (hn : ∀ i, (st.tabs i).mu.sizeKey = nbytes (kind i))
    (hp : ∀ i, (st.tabs i).mu.sizeKey = 0 → ∀ hd, s.tab i hd = none) (he : Env nm order st0 st m0) (hm : mio.Round rt)
    (hg : ∀ m a, s.mem m = some a → io.Good a) (hd : ¬ NoGap Sg) (now : Nat) :
    ∃ ts, saveSys nm order io mio st = some ts ∧ ∀ rest, loadSys nm order io mio now st0 (ts ++ rest) = none := by
  obtain ⟨txt, T2, e1, e2, H⟩ := restore_tabs hc h hn hp he hm now
  obtain ⟨ts, e3, e4⟩ := restore_hole (savable h hg) hd
  refine ⟨txt.flatten ++ ts, ?_, ?_⟩
  · simp only [saveSys, e1, e3, Option.bind_eq_bind, Option.bind_some, Option.pure_def]
  · intro rest
    simp only [loadSys, List.append_assoc, e2, e4, Option.bind_eq_bind, Option.bind_some, Option.bind_none]

end whole
end Bm.Save
