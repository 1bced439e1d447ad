import Verif.Lemmas.SaveUnit

/-! Restoring a table, and what can be done with it. -/

namespace Bm.Save
open Spec MT
variable {D : Type} {t : TableKind} {V R : Type}

/-! ## The cursor of the handle manager does not matter, but for `add` -/

theorem release_zero (m : HandleMgr) (i : Nat) :
    ({ m with firstUnset := 0 } : HandleMgr).releaseHandle i =
      (m.releaseHandle i).map fun r => (r.1, { r.2 with firstUnset := 0 }) := by
  unfold HandleMgr.releaseHandle
  simp only [Option.bind_eq_bind, Option.pure_def]
  by_cases h : i ≥ m.handles.numBits
  · simp [h]
  · simp only [h, if_false]
    cases m.handles.reset i with
    | none => rfl
    | some x =>
      obtain ⟨ok, b⟩ := x
      cases ok <;> simp

theorem check_z (mu : MUnit t.str V R) (h : Nat) : (z mu).checkHandle h = mu.checkHandle h := rfl

theorem delete_z (mu : MUnit t.str V R) (h : Nat) :
    (z mu).deleteEntry h = (mu.deleteEntry h).map fun r => (r.1, z r.2) := by
  unfold MUnit.deleteEntry
  rw [check_z]
  simp only [Option.bind_eq_bind, Option.pure_def]
  cases mu.checkHandle h with
  | none => rfl
  | some c =>
    simp only [Option.bind_some]
    by_cases hc : c ≠ .success
    · simp [hc]
    · simp only [hc, if_false]
      show ((mu.entries (handleInternal h)).kv.bind fun x => (t.str.delete mu.lstr x.1).bind fun ls =>
        (({ mu.handles with firstUnset := 0 } : HandleMgr).releaseHandle (handleInternal h)).bind _) = _
      rw [release_zero]
      cases hkv : (mu.entries (handleInternal h)).kv with
      | none => rfl
      | some x =>
        simp only [Option.bind_some]
        cases t.str.delete mu.lstr x.1 with
        | none => rfl
        | some ls =>
          simp only [Option.bind_some]
          cases mu.handles.releaseHandle (handleInternal h) with
          | none => rfl
          | some y =>
            obtain ⟨ok, hm⟩ := y
            cases ok <;> simp [z, hkv]

theorem modify_z (mu : MUnit t.str V R) (h : Nat) (v : V) :
    (z mu).modifyEntry h v = (mu.modifyEntry h v).map fun r => (r.1, z r.2) := by
  unfold MUnit.modifyEntry
  rw [check_z]
  simp only [Option.bind_eq_bind, Option.pure_def]
  cases mu.checkHandle h with
  | none => rfl
  | some c =>
    simp only [Option.bind_some]
    by_cases hc : c ≠ .success
    · simp [hc]
    · simp only [hc, if_false]
      show ((mu.entries (handleInternal h)).kv.bind _) = _
      cases (mu.entries (handleInternal h)).kv with
      | none => rfl
      | some x => rfl

theorem lookup_z (mu : MUnit t.str V R) (q : Bytes) (n ts : Nat) :
    (z mu).lookup q n ts = (mu.lookup q n ts).map fun r => (r.1, z r.2) := by
  unfold MUnit.lookup
  simp only [Option.bind_eq_bind, Option.pure_def]
  show ((t.str.lookup mu.lstr q).bind _) = _
  cases t.str.lookup mu.lstr q with
  | none => rfl
  | some x =>
    obtain ⟨r, ls⟩ := x
    simp only [Option.bind_some]
    cases r with
    | none => rfl
    | some i =>
      simp only
      show (if i < mu.size then _ else _) = _
      by_cases hi : i < mu.size
      · simp only [hi, if_true]
        show ((mu.entries i).kv.bind _) = _
        cases (mu.entries i).kv with
        | none => rfl
        | some kv =>
          simp only [Option.bind_some]
          show (if handleInternal (handleSet (mu.entries i).version i) < mu.size then _ else _) = _
          by_cases hj : handleInternal (handleSet (mu.entries i).version i) < mu.size
          · simp only [hj, if_true]; rfl
          · simp only [hj, if_false]; rfl
      · simp only [hi, if_false]; rfl

/-- A table with the cursor at 0. -/
def zT (T : Tab t.str R) : Tab t.str R := { T with mu := z T.mu }

theorem iterFrom_zero (m : HandleMgr) : ∀ (n : Nat) (i : Option Nat),
    ({ m with firstUnset := 0 } : HandleMgr).iterFrom n i = m.iterFrom n i
  | 0, i => by cases i <;> rfl
  | n + 1, none => rfl
  | n + 1, some i => by
    simp only [HandleMgr.iterFrom, iterFrom_zero m n]

theorem getEntries_z (T : Tab t.str R) : (zT T).getEntries = T.getEntries := by
  have h1 : (z T.mu).handles.iterate = T.mu.handles.iterate := iterFrom_zero _ _ _
  have h2 : (zT T).mu.handleList = T.mu.handleList := by
    unfold MUnit.handleList
    show (z T.mu).handles.iterate.bind _ = _
    rw [h1]; rfl
  unfold Tab.getEntries
  rw [h2]
  rfl

/-- Calls that add an entry. -/
def IsAdd {K : Type} : AOp K → Prop
  | .add .. => True
  | _ => False

theorem exec_z (T : Tab t.str R) (op : AOp t.K) (h : ¬ IsAdd op) :
    (zT T).exec op = (T.exec op).map fun r => (r.1, zT r.2) := by
  cases op with
  | add k f data now => exact absurd trivial h
  | delete hd =>
    simp only [Tab.exec, Tab.deleteEntry]
    show Option.map _ (if T.cfg.immutable = true then _ else ((z T.mu).deleteEntry hd).bind _) = _
    by_cases hi : T.cfg.immutable = true
    · simp only [hi, if_true]; rfl
    · simp only [hi, if_false, delete_z]
      show _ = Option.map _ (Option.map _ ((T.mu.deleteEntry hd).bind _))
      cases T.mu.deleteEntry hd <;> rfl
  | modify hd f data =>
    simp only [Tab.exec, Tab.modifyEntry]
    show Option.map _ (if T.cfg.immutable = true then _ else if data.length ≠ f.nparams then _ else (T.cfg.next f.id).bind fun n =>
      ((z T.mu).modifyEntry hd _).bind _) = _
    by_cases hi : T.cfg.immutable = true
    · simp only [hi, if_true]; rfl
    by_cases hd' : data.length ≠ f.nparams
    · simp only [if_neg hi, if_pos hd']; rfl
    · simp only [hi, hd', if_false, modify_z]
      show _ = Option.map _ (Option.map _ ((T.cfg.next f.id).bind fun n => (T.mu.modifyEntry hd _).bind _))
      cases T.cfg.next f.id with
      | none => rfl
      | some n =>
        simp only [Option.bind_some]
        cases T.mu.modifyEntry hd { fn := some f, data, next := n } <;> rfl
  | setDefault f data =>
    simp only [Tab.exec, Tab.setDefault]
    show Option.map _ (if T.cfg.constEntry = true then _ else if T.cfg.otherAction f = true then _ else
      if data.length ≠ f.nparams then _ else (T.cfg.nextDefault f.id).bind _) = _
    by_cases h1 : T.cfg.constEntry = true
    · simp only [h1, if_true]; rfl
    by_cases h2 : T.cfg.otherAction f = true
    · simp only [if_neg h1, if_pos h2]; rfl
    by_cases h3 : data.length ≠ f.nparams
    · simp only [if_neg h1, if_neg h2, if_pos h3]; rfl
    · simp only [h1, h2, h3, if_false]
      show _ = Option.map _ (Option.map _ ((T.cfg.nextDefault f.id).bind _))
      cases T.cfg.nextDefault f.id <;> rfl
  | resetDefault => rfl
  | get hd =>
    simp only [Tab.exec]
    show Option.map _ ((T.getEntry hd).bind _) = _
    cases (T.getEntry hd).bind (entryOut hd) <;> rfl
  | getByKey k =>
    simp only [Tab.exec]
    show Option.map _ ((T.getEntryFromKey k).bind _) = _
    cases (T.getEntryFromKey k).bind keyOut <;> rfl
  | entries =>
    simp only [Tab.exec]
    rw [getEntries_z]
    cases T.getEntries.bind (List.mapM elemOut) <;> rfl
  | getDefault => rfl
  | count => rfl
  | clear d => rfl
  | apply q nb ts =>
    simp only [Tab.exec, Tab.apply, Tab.lookup]
    show Option.map _ ((((z T.mu).lookup q nb ts).bind _).bind _) = Option.map _ (Option.map _ (((T.mu.lookup q nb ts).bind _).bind _))
    rw [lookup_z]
    cases T.mu.lookup q nb ts with
    | none => rfl
    | some x =>
      obtain ⟨r, mu'⟩ := x
      cases r <;> rfl

theorem run_z : ∀ (ops : List (AOp t.K)) (T : Tab t.str R), (∀ op ∈ ops, ¬ IsAdd op) →
    (zT T).run ops = (T.run ops).map fun r => (r.1, zT r.2)
  | [], T, _ => rfl
  | op :: ops, T, h => by
    simp only [Tab.run, exec_z T op (h op (by simp)), Option.bind_eq_bind, Option.pure_def]
    cases T.exec op with
    | none => rfl
    | some x =>
      simp only [Option.map_some, Option.bind_some, run_z ops x.2 (fun o ho => h o (by simp [ho]))]
      cases x.2.run ops <;> rfl

/-! ## The configuration does not change -/

variable {K : Type} {L : LookupStr K}

theorem exec_cfg {T T' : Tab L R} {op : AOp K} {out : AOut K} (e : T.exec op = some (out, T')) : T'.cfg = T.cfg := by
  cases op with
  | add k f data now =>
    simp only [Tab.exec, Option.map_eq_some_iff] at e
    obtain ⟨r, e, e2⟩ := e
    have e2 := congrArg Prod.snd e2; simp only at e2; subst e2
    simp only [Tab.addEntry] at e
    split at e
    · cases e; rfl
    split at e
    · cases e; rfl
    simp only [Option.bind_eq_bind] at e
    obtain ⟨n, -, e⟩ := Option.bind_eq_some_iff.1 e
    obtain ⟨x, -, e⟩ := Option.bind_eq_some_iff.1 e
    cases e; rfl
  | delete h =>
    simp only [Tab.exec, Option.map_eq_some_iff] at e
    obtain ⟨r, e, e2⟩ := e
    have e2 := congrArg Prod.snd e2; simp only at e2; subst e2
    simp only [Tab.deleteEntry] at e
    split at e
    · cases e; rfl
    simp only [Option.bind_eq_bind] at e
    obtain ⟨x, -, e⟩ := Option.bind_eq_some_iff.1 e
    cases e; rfl
  | modify h f data =>
    simp only [Tab.exec, Option.map_eq_some_iff] at e
    obtain ⟨r, e, e2⟩ := e
    have e2 := congrArg Prod.snd e2; simp only at e2; subst e2
    simp only [Tab.modifyEntry] at e
    split at e
    · cases e; rfl
    split at e
    · cases e; rfl
    simp only [Option.bind_eq_bind] at e
    obtain ⟨n, -, e⟩ := Option.bind_eq_some_iff.1 e
    obtain ⟨x, -, e⟩ := Option.bind_eq_some_iff.1 e
    cases e; rfl
  | setDefault f data =>
    simp only [Tab.exec, Option.map_eq_some_iff] at e
    obtain ⟨r, e, e2⟩ := e
    have e2 := congrArg Prod.snd e2; simp only at e2; subst e2
    simp only [Tab.setDefault] at e
    split at e
    · cases e; rfl
    split at e
    · cases e; rfl
    split at e
    · cases e; rfl
    simp only [Option.bind_eq_bind] at e
    obtain ⟨n, -, e⟩ := Option.bind_eq_some_iff.1 e
    cases e; rfl
  | resetDefault => cases e; rfl
  | get hd =>
    simp only [Tab.exec, Option.map_eq_some_iff] at e
    obtain ⟨r, e, e2⟩ := e
    cases e2; rfl
  | getByKey k =>
    simp only [Tab.exec, Option.map_eq_some_iff] at e
    obtain ⟨r, e, e2⟩ := e
    cases e2; rfl
  | entries =>
    simp only [Tab.exec, Option.map_eq_some_iff] at e
    obtain ⟨r, e, e2⟩ := e
    cases e2; rfl
  | getDefault => cases e; rfl
  | count => cases e; rfl
  | clear d => cases e; rfl
  | apply q nb ts =>
    simp only [Tab.exec, Option.map_eq_some_iff] at e
    obtain ⟨r, e, e2⟩ := e
    have e2 := congrArg Prod.snd e2; simp only at e2; subst e2
    simp only [Tab.apply, Option.bind_eq_bind] at e
    obtain ⟨x, e, e1⟩ := Option.bind_eq_some_iff.1 e
    simp only [Option.pure_def, Option.some.injEq] at e1
    rw [← e1]
    simp only [Tab.lookup, Option.bind_eq_bind] at e
    obtain ⟨y, e, e1⟩ := Option.bind_eq_some_iff.1 e
    split at e1 <;> (cases e1; rfl)

theorem run_cfg : ∀ (ops : List (AOp K)) {T T' : Tab L R} {outs : List (AOut K)}, T.run ops = some (outs, T') →
    T'.cfg = T.cfg
  | [], T, T', outs, e => by cases e; rfl
  | op :: ops, T, T', outs, e => by
    simp only [Tab.run, Option.bind_eq_bind] at e
    obtain ⟨x, e1, e⟩ := Option.bind_eq_some_iff.1 e
    obtain ⟨y, e2, e⟩ := Option.bind_eq_some_iff.1 e
    cases e
    rw [run_cfg ops e2, exec_cfg e1]

/-! ## Values in histories -/

/-- Calls that write only actions and data with the property. -/
def Writes (Q : ActFn × List Int → Prop) : AOp K → Prop
  | .add _ f data _ => Q (f, data)
  | .modify _ f data => Q (f, data)
  | .setDefault f data => Q (f, data)
  | _ => True

theorem trace_values {P : TableDecl K} {sp : MatchSpec K} {size kl} {s s' : AState K} {ops : List (AOp K)} {outs}
    {Q : ActFn × List Int → Prop} (tr : ATrace P sp size kl s ops outs s') (hw : ∀ op ∈ ops, Writes Q op)
    (hT : ∀ h k a, s.T h = some (k, a) → Q a) (hD : ∀ a, s.D = some a → Q a) (h0 : ∀ a, P.default0 = some a → Q a) :
    (∀ h k a, s'.T h = some (k, a) → Q a) ∧ ∀ a, s'.D = some a → Q a := by
  induction tr with
  | nil => exact ⟨hT, hD⟩
  | @cons s s1 s2 op out ops outs st tr ih =>
    have hq := hw op (by simp)
    have : (∀ h k a, s1.T h = some (k, a) → Q a) ∧ ∀ a, s1.D = some a → Q a := by
      cases op with
      | add k f data now =>
        simp only [AStep] at st
        split at st
        · rw [st.1]; exact ⟨hT, hD⟩
        split at st
        · rw [st.1]; exact ⟨hT, hD⟩
        · obtain ⟨o, st, e, _⟩ := st
          exact ⟨st.values (Q := Q) hq hT, by rw [e]; exact hD⟩
      | delete hd =>
        simp only [AStep] at st
        split at st
        · rw [st.1]; exact ⟨hT, hD⟩
        · obtain ⟨o, st, e, _⟩ := st
          exact ⟨st.values (Q := Q) trivial hT, by rw [e]; exact hD⟩
      | modify hd f data =>
        simp only [AStep] at st
        split at st
        · rw [st.1]; exact ⟨hT, hD⟩
        split at st
        · rw [st.1]; exact ⟨hT, hD⟩
        · obtain ⟨o, st, e, _⟩ := st
          exact ⟨st.values (Q := Q) hq hT, by rw [e]; exact hD⟩
      | setDefault f data =>
        simp only [AStep] at st
        split at st
        · rw [st.1]; exact ⟨hT, hD⟩
        split at st
        · rw [st.1]; exact ⟨hT, hD⟩
        split at st
        · rw [st.1]; exact ⟨hT, hD⟩
        · rw [st.1]
          refine ⟨hT, ?_⟩
          intro a ha
          simp only [Option.some.injEq] at ha
          rw [← ha]; exact hq
      | resetDefault => rw [st.1]; exact ⟨hT, h0⟩
      | get _ => rw [st.1]; exact ⟨hT, hD⟩
      | getByKey k => rw [st.1]; exact ⟨hT, hD⟩
      | entries => rw [st.1]; exact ⟨hT, hD⟩
      | getDefault => rw [st.1]; exact ⟨hT, hD⟩
      | count => rw [st.1]; exact ⟨hT, hD⟩
      | clear c =>
        rw [st.1]
        refine ⟨by simp, ?_⟩
        cases c
        · exact hD
        · exact h0
      | apply q n t => rw [st.1]; exact ⟨hT, hD⟩
    exact ih (fun o ho => hw o (by simp [ho])) this.1 this.2

/-- A table without a key has no entries. -/
theorem keyless_step {V : Type} {sp : MatchSpec K} {size} {T T' : Nat → Option (K × V)} {op : TOp K V} {out}
    (st : TStep sp size true T op T' out) (h : ∀ i, T i = none) : ∀ i, T' i = none := by
  cases op with
  | add key v now => rw [st.2]; exact h
  | delete hd =>
    rcases st with ⟨hs, _, _⟩ | ⟨_, _, e⟩
    · simp [h] at hs
    · rw [e]; exact h
  | modify hd v =>
    rcases st with ⟨k, v', hs, _⟩ | ⟨_, _, e⟩
    · simp [h] at hs
    · rw [e]; exact h
  | reset => intro i; rw [st.1]
  | _ => rw [st.1]; exact h

theorem keyless_trace {P : TableDecl K} {sp : MatchSpec K} {size} {s s' : AState K} {ops : List (AOp K)} {outs}
    (tr : ATrace P sp size true s ops outs s') (h : ∀ i, s.T i = none) : ∀ i, s'.T i = none := by
  generalize hk : true = kl at tr
  induction tr with
  | nil => exact h
  | @cons s s1 s2 op out ops outs st tr ih =>
    subst hk
    refine ih ?_
    cases op with
    | add k f data now =>
      simp only [AStep] at st
      split at st
      · rw [st.1]; exact h
      split at st
      · rw [st.1]; exact h
      · obtain ⟨o, st, e, _⟩ := st; exact keyless_step st h
    | delete hd =>
      simp only [AStep] at st
      split at st
      · rw [st.1]; exact h
      · obtain ⟨o, st, e, _⟩ := st; exact keyless_step st h
    | modify hd f data =>
      simp only [AStep] at st
      split at st
      · rw [st.1]; exact h
      split at st
      · rw [st.1]; exact h
      · obtain ⟨o, st, e, _⟩ := st; exact keyless_step st h
    | setDefault f data =>
      simp only [AStep] at st
      split at st
      · rw [st.1]; exact h
      split at st
      · rw [st.1]; exact h
      split at st
      · rw [st.1]; exact h
      · rw [st.1]; exact h
    | clear c => rw [st.1]; simp
    | _ => rw [st.1]; exact h

/-! ## Nodes -/

/-- The nodes a declaration names. -/
def HasNode (P : TableDecl K) (n : Nat) : Prop :=
  (∃ x ∈ P.actions, x.2 = some n) ∨ (∃ h m, P.hitMiss = some (h, m) ∧ (h = some n ∨ m = some n)) ∨ P.base = some (some n)

theorem goto_hasNode (P : TableDecl K) (hit : Bool) (a) {n : Nat} (e : P.goto hit a = some n) : HasNode P n := by
  unfold TableDecl.goto at e
  split at e
  · rename_i h m hm
    cases hit
    · exact .inr (.inl ⟨h, m, hm, .inr (by simpa using e)⟩)
    · exact .inr (.inl ⟨h, m, hm, .inl (by simpa using e)⟩)
  · simp only [TableDecl.after] at e
    split at e
    · rename_i x hx
      exact .inl ⟨x, List.mem_of_find?_eq_some hx, e⟩
    · cases e
  · cases hb : P.base with
    | none => simp [hb] at e
    | some b =>
      simp only [hb, Option.getD_some] at e
      subst e
      exact .inr (.inr hb)

/-- Fresh tables without constant entries. -/
theorem load_fresh {P : TableDecl K} (hi : (P.actions.map fun x => x.1.id).Nodup) (hn : P.entries = none)
    {size sizeKey : Nat} {m0 : Nat → R} {T : Tab L R} (e : Tab.load L size sizeKey m0 P = some T) :
    T.mu = MUnit.init L ActEntry size sizeKey m0 ∧ T.dflt.data = (P.dflt.map DefaultDecl.data).getD [] ∧
      ∀ n, T.cfg.missNode = some n → HasNode P n := by
  obtain ⟨hp, hmu⟩ := preCfg L P hi size sizeKey m0
  have hmiss : ∀ n, (((P.actions.foldl (fun t x => t.setNext x.1.id x.2) (Tab.init L size sizeKey m0)).loadHitMiss
      P.hitMiss).loadBase P.base).cfg.missNode = some n → HasNode P n := by
    intro n
    rw [foldl_setNext P.actions hi]
    cases h1 : P.hitMiss with
    | none =>
      cases h2 : P.base with
      | none => simp [Tab.loadHitMiss, Tab.loadBase, Tab.init]
      | some b =>
        simp only [Tab.loadHitMiss, Tab.loadBase, Tab.init, Tab.setNextMissDefault, Tab.setDD, Bool.false_eq_true, if_false]
        rintro rfl
        exact .inr (.inr h2)
    | some hm =>
      obtain ⟨h, m⟩ := hm
      cases h2 : P.base with
      | none =>
        simp only [Tab.loadHitMiss, Tab.loadBase, Tab.init, Tab.setNextHit, Tab.setNextMiss, Tab.setDD]
        rintro rfl
        exact .inr (.inl ⟨h, _, h1, .inr rfl⟩)
      | some b =>
        simp only [Tab.loadHitMiss, Tab.loadBase, Tab.init, Tab.setNextHit, Tab.setNextMiss, Tab.setNextMissDefault, Tab.setDD, if_true]
        rintro rfl
        exact .inr (.inl ⟨h, _, h1, .inr rfl⟩)
  simp only [Tab.load, Option.bind_eq_bind, hn, Tab.loadEntries] at e
  obtain ⟨T1, e1, e2⟩ := Option.bind_eq_some_iff.1 e
  cases e2
  revert e1 hp hmu hmiss
  generalize (((P.actions.foldl (fun t x => t.setNext x.1.id x.2) (Tab.init L size sizeKey m0)).loadHitMiss
      P.hitMiss).loadBase P.base) = T0
  intro hp hmu hmiss e1
  cases hd : P.dflt with
  | none =>
    rw [hd] at e1
    cases e1
    exact ⟨hmu, by rw [hp.d]; rfl, hmiss⟩
  | some d =>
    rw [hd] at e1
    simp only [Tab.loadDefault, Option.bind_eq_bind] at e1
    obtain ⟨T2, e2, e3⟩ := Option.bind_eq_some_iff.1 e1
    have h2 : T2.mu = T0.mu ∧ T2.cfg.missNode = T0.cfg.missNode := by
      simp only [Tab.loadConst] at e2
      split at e2
      · simp only [Tab.setConstAction] at e2
        split at e2
        · cases e2; exact ⟨rfl, rfl⟩
        · cases e2
      · cases e2; exact ⟨rfl, rfl⟩
    simp only [Tab.setDefaultDefault, Option.bind_eq_bind] at e3
    split at e3
    · obtain ⟨n, -, e3⟩ := Option.bind_eq_some_iff.1 e3
      cases e3
      exact ⟨by rw [← hmu, ← h2.1]; rfl, rfl, fun n hn => hmiss n (by rw [← h2.2]; exact hn)⟩
    · cases e3

/-! ## The whole table -/

theorem run_rep {sp : MatchSpec K} {W : Laws L sp} {P : TableDecl K} (ops : List (AOp K)) :
    ∀ {T : Tab L R} {s : AState K} {E}, MT.Rep W P P.entries.isSome T s E → (∀ op ∈ ops, op.Valid P sp) →
    ∃ outs T' s' E', T.run ops = some (outs, T') ∧ MT.Rep W P P.entries.isSome T' s' E' ∧
      T'.mu.size = T.mu.size ∧ T'.mu.sizeKey = T.mu.sizeKey ∧
      ATrace P sp T.mu.size (decide (T.mu.sizeKey = 0)) s ops outs s' := by
  induction ops with
  | nil => intro T s E h _; exact ⟨[], T, s, E, rfl, h, rfl, rfl, .nil s⟩
  | cons op ops ih =>
    intro T s E h hv
    obtain ⟨o, t1, s1, E1, e1, r1, z1, k1, st⟩ := h.exec op (hv op (by simp))
    obtain ⟨os, t2, s2, E2, e2, r2, z2, k2, tr⟩ := ih r1 (fun o ho => hv o (by simp [ho]))
    rw [z1, k1] at tr
    exact ⟨o :: os, t2, s2, E2, by simp [Tab.run, e1, e2], r2, by rw [z2, z1], by rw [k2, k1], .cons st tr⟩

/-- Everything the program names is found under its name. -/
structure Objs.Ok (o : Objs) (P : TableDecl K) : Prop where
  act : ∀ f ∈ P.actions.map Prod.fst, o.act f.id = some f
  dflt : ∀ d, P.dflt = some d → o.act d.fn.id = some d.fn
  node : ∀ n, HasNode P n → o.NodeOk n

/-- Calls whose data are not negative. -/
def NonNeg : AOp K → Prop := Writes fun a => ∀ d ∈ a.2, 0 ≤ d

theorem over_dok {P : TableDecl K} {e0 e : ActEntry} {d} (h : DOk P e d) (h0 : e0.data = [])
    (hn : e.next = none → e0.next = none) : DOk P (over e0 e) d := by
  obtain ⟨h1, h2⟩ := h
  refine ⟨?_, ?_⟩
  · rw [← h1]
    cases hf : e.fn <;> simp [over, hf, h0]
  · rw [← h2]
    cases hq : e.next with
    | none => simp [over, hq, hn hq]
    | some n => simp [over, hq]

theorem restore_tab {t : TableKind} (hc : Copies t) {P : TableDecl t.K} (hw : P.WF t.spec) (hent : P.entries = none)
    (hdd : ∀ d, P.dflt = some d → d.data = []) {size : Nat} (hs : size ≤ 2 ^ 24) {m0 : Nat → R}
    {o : Objs} (ho : o.Ok P) {mio : MeterIO D R} {rt : R → R → R} (hm : mio.Round rt) {name : List Char}
    (hname : name ≠ []) (now : Nat) {T0 : Tab t.str R} (e0 : Tab.load t.str size (nbytes t) m0 P = some T0)
    (ops : List (AOp t.K)) (hv : ∀ op ∈ ops, op.Valid P t.spec) (hpos : ∀ op ∈ ops, NonNeg op) :
    ∃ outs T1 s0 s1, T0.run ops = some (outs, T1) ∧ P.Start s0 ∧
      ATrace P t.spec size (decide (nbytes t = 0)) s0 ops outs s1 ∧
      ((P.goto false s1.D = none → P.goto false P.default0 = none) →
        ∃ txt T2 E, saveTab o mio name T1 = some txt ∧
          (∀ rest, loadTab o mio name now T0 (txt ++ rest) = some (zT T2, rest)) ∧
          (∀ name' rest, name' ≠ name → loadTab o mio name' now T0 (txt ++ rest) = none) ∧
          MT.Rep t.laws P P.entries.isSome T2 s1 E ∧ T2.mu.size = size ∧ T2.mu.sizeKey = nbytes t ∧
          (∀ i < size, T2.mu.meters i = rt (m0 i) (T1.mu.meters i)) ∧
          (∀ h, (s1.T h).isSome = true → (T2.mu.metas (slotOf h)) =
            { ts := now, timeoutMs := (T1.mu.metas (slotOf h)).timeoutMs, version := (T1.mu.metas (slotOf h)).version }) ∧
          ((∀ h, slotOf h = 0 → s1.T h = none) → zT T2 = T2)) := by
  obtain ⟨s, E0, h0, hst, z1, z2⟩ := load_ok t.laws P hw hs m0 e0
  obtain ⟨f1, f2, f3⟩ := load_fresh hw.ids hent e0
  obtain ⟨outs, T1, s1, E1, er, h1, y1, y2, tr⟩ := run_rep ops h0 hv
  rw [z1, z2] at tr
  refine ⟨outs, T1, s, s1, er, hst, tr, fun hnext => ?_⟩
  have hsT : ∀ h, s.T h = none := by
    obtain ⟨-, hs', hl, hmap⟩ := hst
    rw [hent] at hmap
    simp only [Option.getD_none, List.map_nil, List.map_eq_nil_iff] at hmap
    subst hmap
    intro h
    cases hq : s.T h with
    | none => rfl
    | some x => exact absurd ((hl.2 h).2 (by simp [hq])) (by simp)
  have hd0 : ∀ a, P.default0 = some a → o.act a.1.id = some a.1 ∧ ∀ x ∈ a.2, 0 ≤ x := by
    intro a ha
    simp only [TableDecl.default0, Option.map_eq_some_iff] at ha
    obtain ⟨d, hd, rfl⟩ := ha
    exact ⟨ho.dflt d hd, by simp [hdd d hd]⟩
  obtain ⟨q1, q2⟩ := trace_values (Q := fun a => o.act a.1.id = some a.1 ∧ ∀ x ∈ a.2, 0 ≤ x) tr (by
      intro op hop
      have a := hv op hop
      have b := hpos op hop
      cases op with
      | add k f data now => exact ⟨ho.act f a.2, b⟩
      | modify h f data => exact ⟨ho.act f a, b⟩
      | setDefault f data => exact ⟨ho.act f a, b⟩
      | _ => trivial) (by intro h k a hh; simp [hsT] at hh) (by rw [hst.1]; exact hd0) hd0
  have htab : ∀ i kv, E1 i = some kv → s1.T (handleSet (T1.mu.entries i).version i) = some (kv.1, strip kv.2) ∧ Good P kv.2 ∧
      slotOf (handleSet (T1.mu.entries i).version i) = i := by
    intro i kv hi
    have hlt := h1.mu.lt24 hi
    have := h1.mu.tab_set hlt
    rw [hi] at this
    exact ⟨by rw [h1.T]; exact mapE_some.2 ⟨_, this, rfl⟩, h1.good _ _ _ this,
      by rw [slotOf_eq, handleInternal_set _ _ hlt]⟩
  have hio : ∀ i k v, E1 i = some (k, v) → (actIO D o).Good v := by
    intro i k v hi
    obtain ⟨a1, a2, -⟩ := htab i _ hi
    obtain ⟨b1, b2⟩ := q1 _ _ _ a1
    obtain ⟨c1, -, c2⟩ := strip_good a2
    obtain ⟨ts, g1, g2⟩ := loadAct_save (D := D) o {} v (by
        intro f hf; rw [c1] at hf; cases hf; exact b1) (by
        intro n hn; rw [c2] at hn; exact ho.node n (goto_hasNode P _ _ hn)) b2
    refine ⟨ts, g1, fun rest => ?_⟩
    have : over {} v = v := by
      have c3 : v.fn.isSome = true := by rw [c1]; rfl
      obtain ⟨f, d, n⟩ := v
      simp only at c3
      simp [over, c3]
    have g := g2 rest
    rw [this] at g; exact g
  have hkl : T1.mu.sizeKey = 0 → ∀ i, E1 i = none := by
    intro hz i
    have hz' : decide (nbytes t = 0) = true := by rw [decide_eq_true_eq, ← z2, ← y2]; exact hz
    rw [hz'] at tr
    have := keyless_trace tr hsT
    cases hq : E1 i with
    | none => rfl
    | some kv => have a := (htab i kv hq).1; rw [this] at a; cases a
  obtain ⟨ut, mu2, g1, g2, g3⟩ := restore_unit (D := D) hc hkl (by rw [y2, z2]) h1.mu m0 (actIO D o) hio mio rt hm now
  rw [y1, y2, z1, z2, ← f1] at g2
  have hD1 : T1.dflt.fn.map (fun f => (f, T1.dflt.data)) = s1.D ∧ T1.dflt.next = P.goto false s1.D := h1.D
  obtain ⟨dt, k1, k2⟩ := loadAct_save (D := D) o T0.dflt { T1.dflt with data := if T1.dflt.fn.isSome then T1.dflt.data else [] } (by
      intro f hf
      have hf : T1.dflt.fn = some f := hf
      exact (q2 (f, T1.dflt.data) (by rw [← hD1.1, hf]; rfl)).1) (by
      intro n hn
      have hn : T1.dflt.next = some n := hn
      rw [hD1.2] at hn; exact ho.node n (goto_hasNode P _ _ hn)) (by
      intro x hx
      cases hf : T1.dflt.fn with
      | none => simp [hf] at hx
      | some f =>
        simp only [hf, Option.isSome_some, if_true] at hx
        exact (q2 (f, T1.dflt.data) (by rw [← hD1.1, hf]; rfl)).2 x hx)
  have k1' : saveAct o T1.dflt = some dt := by
    rw [← k1]
    cases hf : T1.dflt.fn <;> simp [saveAct, saveFn, hf]
  have k2' : over T0.dflt { T1.dflt with data := if T1.dflt.fn.isSome then T1.dflt.data else [] } = over T0.dflt T1.dflt := by
    cases hf : T1.dflt.fn <;> simp [over, hf]
  have hcfg := run_cfg ops er
  have hmn : ∀ rest : List (Tok D), loadNode o T0.cfg.missNode (saveNode o T1.cfg.missNode ++ rest) = some (T0.cfg.missNode, rest) := by
    intro rest
    rw [loadNode_save o _ _ (by intro n hn; rw [hcfg] at hn; exact ho.node n (f3 n hn)) rest, hcfg]
    cases T0.cfg.missNode <;> rfl
  refine ⟨putWord name ++ saveNode o T1.cfg.missNode ++ ut ++ dt, { cfg := T0.cfg, mu := mu2, dflt := over T0.dflt T1.dflt },
    E1, ?_, ?_, ?_, ⟨g3.rep, ?_, ?_, ?_, ?_⟩, ?_, ?_, ?_, ?_, ?_⟩
  · simp only [saveTab, g1, k1', Option.bind_eq_bind, Option.bind_some, Option.pure_def]
  · intro rest
    rw [putWord_of hname]
    simp only [loadTab, List.append_assoc, List.cons_append, List.nil_append, readWord, Option.bind_eq_bind, Option.bind_some,
      hmn, g2, k2, k2', Option.pure_def, ne_eq, not_true_eq_false, if_false]
    rfl
  · intro name' rest hne
    rw [putWord_of hname]
    simp only [loadTab, List.append_assoc, List.cons_append, List.nil_append, readWord, Option.bind_eq_bind, Option.bind_some,
      if_pos hne.symm]
    rfl
  · show s1.T = mapE strip (mu2.tab E1)
    rw [g3.tab]; exact h1.T
  · intro h k v hh
    rw [g3.tab] at hh; exact h1.good h k v hh
  · show CfgOk P _ T0.cfg
    exact h0.cfg
  · refine over_dok h1.D ?_ ?_
    · rw [f2]
      cases hd : P.dflt with
      | none => rfl
      | some d => exact hdd d hd
    · intro hn
      have hd := h0.D.2
      rw [hd, hst.1]
      exact hnext (by rw [← hD1.2]; exact hn)
  · show mu2.size = _
    rw [g3.size, y1, z1]
  · show mu2.sizeKey = _
    rw [g3.sizeKey, y2, z2]
  · intro i hi
    exact g3.meters i (by rw [y1, z1]; exact hi)
  · intro h hh
    refine g3.meta' _ ?_
    obtain ⟨x, hx⟩ := Option.isSome_iff_exists.1 hh
    rw [h1.T] at hx
    obtain ⟨v, hv', -⟩ := mapE_some.1 hx
    rw [slotOf_eq, (h1.mu.tab_some hv').1]; rfl
  · intro hfree
    have : E1 0 = none := by
      cases hq : E1 0 with
      | none => rfl
      | some kv =>
        obtain ⟨a, -, b⟩ := htab 0 kv hq
        rw [hfree _ b] at a; cases a
    simp only [zT, g3.free this]

/-! ## Ternary and range tables -/

/-- No entry of the list is ever compared with a key. -/
structure Dead {K : Type} (l : EList K) : Prop where
  head : l.head = none ∨ l.head = some 0
  key : (l.nodes 0).key = none
  cache : l.cache = {}

theorem Dead.add {l l' : EList K} (h : Dead l) {prio : K → Int} {k : K} {i : Nat}
    (e : addDangling l prio k i = some l') : Dead l' := by
  simp only [addDangling, Option.map_eq_some_iff] at e
  obtain ⟨l1, e, rfl⟩ := e
  have hset : ∀ (m : EList K) (nxt p : Option Nat), (m.setPrevOf nxt p).head = m.head ∧
      ((m.setPrevOf nxt p).nodes 0).key = (m.nodes 0).key ∧ (m.setPrevOf nxt p).cache = m.cache := by
    intro m nxt p
    cases nxt with
    | none => exact ⟨rfl, rfl, rfl⟩
    | some j =>
      refine ⟨rfl, ?_, rfl⟩
      simp only [EList.setPrevOf, EList.setNode]
      split
      · rename_i hj; rw [← hj]
      · rfl
  have hcache : ∀ m : EList K, m.cache = {} → m.refreshCache.cache = {} := by
    intro m hm
    simp only [EList.refreshCache, hm]
    split <;> rfl
  simp only [EList.add] at e
  split at e
  · simp only [Option.map_eq_some_iff] at e
    obtain ⟨l2, e, rfl⟩ := e
    split at e
    · rename_i h0
      subst h0
      cases e
      refine ⟨.inr ?_, ?_, hcache _ ?_⟩
      · show (EList.setPrevOf _ _ _).head = _
        rw [(hset _ _ _).1]
      · simp [EList.setNode]
      · show (EList.setPrevOf _ _ _).cache = _
        rw [(hset _ _ _).2.2]; exact h.cache
    · rename_i h0
      split at e
      · cases e
      cases e
      refine ⟨?_, ?_, hcache _ ?_⟩
      · show (EList.setPrevOf _ _ _).head = _ ∨ (EList.setPrevOf _ _ _).head = _
        rw [(hset _ _ _).1]; exact h.head
      · show (if 0 = i then _ else (EList.setPrevOf _ _ _).nodes 0).key = none
        rw [if_neg (by omega), (hset _ _ _).2.1]
        simp only [EList.setNode]
        have : ¬ 0 = i := by omega
        by_cases h1 : 0 = i - 1
        · simp only [← h1, if_true, this, if_false]; exact h.key
        · simp only [h1, if_false, this]; exact h.key
      · show (EList.setPrevOf _ _ _).cache = _
        rw [(hset _ _ _).2.2]; exact h.cache
  · cases e

theorem Dead.lookup {l l' : EList K} (h : Dead l) {cmp : Bytes → K → Option Bool} {q : Bytes} {r : Option Nat}
    (e : l.lookup cmp q = some (r, l')) : r = none := by
  have hc : ∀ q, ({} : TCache).lookup q = (none, {}) := fun _ => rfl
  have hhit : (if l.useCache then l.cache.lookup q else (none, l.cache)) = (none, {}) := by
    rw [h.cache, hc]; split <;> rfl
  simp only [EList.lookup, hhit, Option.bind_eq_bind] at e
  obtain ⟨r1, e1, e⟩ := Option.bind_eq_some_iff.1 e
  rcases h.head with hh | hh
  · rw [hh] at e1
    simp only [EList.lookupLoop, Option.some.injEq] at e1
    subst e1
    cases e; rfl
  · rw [hh] at e1
    simp [EList.lookupLoop, h.key] at e1

/-- The entry lists of ternary and range tables. -/
def DeadStr : (t : TableKind) → t.str.S → Prop
  | .ternary _ _, s => Dead (K := TernKey) s
  | .range _ _, s => Dead (K := RangeKey) s
  | _, _ => True

theorem deadStr_init (t : TableKind) (n : Nat) : DeadStr t (t.str.init n) := by
  match t with
  | .ternary _ _ => exact ⟨.inl rfl, rfl, rfl⟩
  | .range _ _ => exact ⟨.inl rfl, rfl, rfl⟩
  | .exact _ => trivial
  | .lpm _ => trivial

theorem deadStr_add (t : TableKind) {s s' : t.str.S} (h : DeadStr t s) {k : t.K} {i : Nat}
    (e : restoreAdd t s k i = some s') : DeadStr t s' := by
  match t with
  | .ternary _ _ => exact Dead.add h e
  | .range _ _ => exact Dead.add h e
  | .exact _ => trivial
  | .lpm _ => trivial

theorem deadStr_lookup (t : TableKind) (hc : ¬ Copies t) {s s' : t.str.S} (h : DeadStr t s) {q : Bytes} {r}
    (e : t.str.lookup s q = some (r, s')) : r = none := by
  match t with
  | .ternary _ _ => exact Dead.lookup h e
  | .range _ _ => exact Dead.lookup h e
  | .exact _ => exact absurd trivial hc
  | .lpm _ => exact absurd trivial hc

theorem loadEntries_dead {t : TableKind} (io : ValIO D V) (now : Nat) : ∀ (n : Nat) (mu mu' : MUnit t.str V R) (ts ts' : List (Tok D)),
    DeadStr t mu.lstr → loadEntries io now n mu ts = some (mu', ts') → DeadStr t mu'.lstr
  | 0, mu, mu', ts, ts', h, e => by cases e; exact h
  | n + 1, mu, mu', ts, ts', h, e => by
    simp only [loadEntries, Option.bind_eq_bind] at e
    obtain ⟨x, e1, e⟩ := Option.bind_eq_some_iff.1 e
    refine loadEntries_dead io now n x.1 mu' x.2 ts' ?_ e
    simp only [loadEntry, Option.bind_eq_bind] at e1
    obtain ⟨a1, -, e1⟩ := Option.bind_eq_some_iff.1 e1
    obtain ⟨a2, -, e1⟩ := Option.bind_eq_some_iff.1 e1
    split at e1
    · cases e1
    obtain ⟨a3, -, e1⟩ := Option.bind_eq_some_iff.1 e1
    obtain ⟨a4, -, e1⟩ := Option.bind_eq_some_iff.1 e1
    obtain ⟨a5, -, e1⟩ := Option.bind_eq_some_iff.1 e1
    split at e1
    · obtain ⟨a6, g, e1⟩ := Option.bind_eq_some_iff.1 e1
      obtain ⟨a7, -, e1⟩ := Option.bind_eq_some_iff.1 e1
      cases e1
      exact deadStr_add t h g
    · cases e1

theorem loadMeters_lstr {t : TableKind} (mio : MeterIO D R) : ∀ (n i : Nat) (mu mu' : MUnit t.str V R) (ts ts' : List (Tok D)),
    loadMeters mio i n mu ts = some (mu', ts') → mu'.lstr = mu.lstr
  | 0, i, mu, mu', ts, ts', e => by cases e; rfl
  | n + 1, i, mu, mu', ts, ts', e => by
    simp only [loadMeters, Option.bind_eq_bind] at e
    obtain ⟨x, e1, e⟩ := Option.bind_eq_some_iff.1 e
    rw [loadMeters_lstr mio n _ _ _ _ _ e]

end Bm.Save
