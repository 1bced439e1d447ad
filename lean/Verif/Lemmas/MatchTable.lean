import Verif.Lemmas.MatchUnitRun
import Verif.Model.MatchTable

/-! Tables with actions: simulation of `Spec.AStep`. -/

namespace Bm
open Spec

/-! ## Maps of the values -/

section Map
variable {K V V' : Type}

def mapE (f : V → V') (T : Nat → Option (K × V)) : Nat → Option (K × V') :=
  fun h => (T h).map fun x => (x.1, f x.2)

def Spec.TOp.map (f : V → V') : TOp K V → TOp K V'
  | .add k v now => .add k (f v) now
  | .delete h => .delete h
  | .modify h v => .modify h (f v)
  | .get h => .get h
  | .retrieve k => .retrieve k
  | .lookup q n t => .lookup q n t
  | .handles => .handles
  | .count => .count
  | .reset => .reset
  | .setTtl h a b => .setTtl h a b
  | .writeCounters h a b => .writeCounters h a b

def Spec.TOut.map (f : V → V') : TOut K V → TOut K V'
  | .err e => .err e
  | .done => .done
  | .handle h => .handle h
  | .entry k v => .entry k (f v)
  | .miss => .miss
  | .hit h v => .hit h (f v)
  | .handles l => .handles l
  | .num n => .num n

variable {f : V → V'} {T T' : Nat → Option (K × V)} {sp : MatchSpec K}

theorem mapE_some {h : Nat} {k : K} {w : V'} :
    mapE f T h = some (k, w) ↔ ∃ v, T h = some (k, v) ∧ f v = w := by
  simp only [mapE, Option.map_eq_some_iff, Prod.mk.injEq, Prod.exists]
  constructor
  · rintro ⟨a, b, h1, rfl, rfl⟩; exact ⟨b, h1, rfl⟩
  · rintro ⟨v, h1, rfl⟩; exact ⟨k, v, h1, rfl, rfl⟩

theorem mapE_none {h : Nat} : mapE f T h = none ↔ T h = none := by simp [mapE]

theorem mapE_isSome {h : Nat} : (mapE f T h).isSome = (T h).isSome := by simp [mapE]

theorem live_mapE {l : List Nat} : Live (mapE f T) l ↔ Live T l := by
  simp only [Live, mapE_isSome]

theorem hasSame_mapE {k : K} : HasSame sp (mapE f T) k ↔ HasSame sp T k := by
  constructor
  · rintro ⟨h, k', w, e, hs⟩
    obtain ⟨v, hv, -⟩ := mapE_some.1 e
    exact ⟨h, k', v, hv, hs⟩
  · rintro ⟨h, k', v, e, hs⟩
    exact ⟨h, k', f v, mapE_some.2 ⟨v, e, rfl⟩, hs⟩

theorem mapE_set {h : Nat} {k : K} {v : V} :
    mapE f (fun h' => if h' = h then some (k, v) else T h') =
      fun h' => if h' = h then some (k, f v) else mapE f T h' := by
  funext h'; simp only [mapE]; split <;> simp

theorem mapE_unset {h : Nat} :
    mapE f (fun h' => if h' = h then none else T h') = fun h' => if h' = h then none else mapE f T h' := by
  funext h'; simp only [mapE]; split <;> simp

theorem Spec.TStep.map {size : Nat} {kl : Bool} {op : TOp K V} {out : TOut K V}
    (st : TStep sp size kl T op T' out) (f : V → V') :
    TStep sp size kl (mapE f T) (op.map f) (mapE f T') (out.map f) := by
  cases op with
  | add key v now =>
    cases kl with
    | true =>
      obtain ⟨rfl, rfl⟩ := st
      exact ⟨rfl, rfl⟩
    | false =>
      cases key with
      | none => obtain ⟨rfl, rfl⟩ := st; exact ⟨rfl, rfl⟩
      | some k =>
        simp only [TStep] at st
        simp only [TStep, TOp.map, hasSame_mapE, live_mapE]
        rcases st with ⟨hs, rfl, rfl⟩ | ⟨hs, hl, rfl, rfl⟩ | ⟨hs, hl, h, rfl, hh, hn, hd, rfl⟩
        · exact .inl ⟨hs, rfl, rfl⟩
        · exact .inr (.inl ⟨hs, hl, rfl, rfl⟩)
        · refine .inr (.inr ⟨hs, hl, h, rfl, hh, mapE_none.2 hn, ?_, mapE_set⟩)
          intro h' hh'
          rw [mapE_isSome] at hh'
          exact hd h' hh'
  | delete h =>
    rcases st with ⟨hs, rfl, rfl⟩ | ⟨hs, rfl, rfl⟩
    · exact .inl ⟨by rw [mapE_isSome]; exact hs, rfl, mapE_unset⟩
    · exact .inr ⟨mapE_none.2 hs, rfl, rfl⟩
  | modify h v =>
    rcases st with ⟨k, v', hs, rfl, rfl⟩ | ⟨hs, rfl, rfl⟩
    · exact .inl ⟨k, f v', mapE_some.2 ⟨v', hs, rfl⟩, rfl, mapE_set⟩
    · exact .inr ⟨mapE_none.2 hs, rfl, rfl⟩
  | get h =>
    obtain ⟨rfl, ⟨k, v, hs, rfl⟩ | ⟨hs, rfl⟩⟩ := st
    · exact ⟨rfl, .inl ⟨k, f v, mapE_some.2 ⟨v, hs, rfl⟩, rfl⟩⟩
    · exact ⟨rfl, .inr ⟨mapE_none.2 hs, rfl⟩⟩
  | retrieve key =>
    cases key with
    | none => obtain ⟨rfl, rfl⟩ := st; exact ⟨rfl, rfl⟩
    | some k =>
      obtain ⟨rfl, ⟨h, k', v', hs, hk, rfl⟩ | ⟨hs, rfl⟩⟩ := st
      · exact ⟨rfl, .inl ⟨h, k', f v', mapE_some.2 ⟨v', hs, rfl⟩, hk, rfl⟩⟩
      · exact ⟨rfl, .inr ⟨by rw [hasSame_mapE]; exact hs, rfl⟩⟩
  | lookup q n t =>
    obtain ⟨rfl, ⟨rfl, hs⟩ | ⟨h, k, v, rfl, hs, hm, hb⟩⟩ := st
    · refine ⟨rfl, .inl ⟨rfl, ?_⟩⟩
      intro h k w e
      obtain ⟨v, hv, -⟩ := mapE_some.1 e
      exact hs h k v hv
    · refine ⟨rfl, .inr ⟨h, k, f v, rfl, mapE_some.2 ⟨v, hs, rfl⟩, hm, ?_⟩⟩
      intro h' k' w e
      obtain ⟨v', hv, -⟩ := mapE_some.1 e
      exact hb h' k' v' hv
  | handles =>
    obtain ⟨rfl, l, hl, rfl⟩ := st
    exact ⟨rfl, l, live_mapE.2 hl, rfl⟩
  | count =>
    obtain ⟨rfl, l, hl, hle, rfl⟩ := st
    exact ⟨rfl, l, live_mapE.2 hl, hle, rfl⟩
  | reset =>
    obtain ⟨rfl, rfl⟩ := st
    exact ⟨rfl, rfl⟩
  | setTtl h a b =>
    obtain ⟨rfl, rfl | rfl⟩ := st
    · exact ⟨rfl, .inl rfl⟩
    · exact ⟨rfl, .inr rfl⟩
  | writeCounters h a b =>
    obtain ⟨rfl, rfl | rfl⟩ := st
    · exact ⟨rfl, .inl rfl⟩
    · exact ⟨rfl, .inr rfl⟩

/-- The value written by a call has a property. -/
def Spec.TOp.Writes (Q : V → Prop) : TOp K V → Prop
  | .add _ v _ => Q v
  | .modify _ v => Q v
  | _ => True

theorem Spec.TStep.values {Q : V → Prop} {size : Nat} {kl : Bool} {op : TOp K V} {out : TOut K V}
    (st : TStep sp size kl T op T' out) (hop : op.Writes Q) (hT : ∀ h k v, T h = some (k, v) → Q v) :
    ∀ h k v, T' h = some (k, v) → Q v := by
  cases op with
  | add key v now =>
    cases kl with
    | true => obtain ⟨rfl, rfl⟩ := st; exact hT
    | false =>
      cases key with
      | none => obtain ⟨rfl, rfl⟩ := st; exact hT
      | some k =>
        simp only [TStep] at st
        rcases st with ⟨hs, rfl, rfl⟩ | ⟨hs, hl, rfl, rfl⟩ | ⟨hs, hl, h, rfl, hh, hn, hd, rfl⟩
        · exact hT
        · exact hT
        · intro h' k' v' e
          by_cases e1 : h' = h
          · simp only [if_pos e1, Option.some.injEq, Prod.mk.injEq] at e; rw [← e.2]; exact hop
          · simp only [if_neg e1] at e; exact hT _ _ _ e
  | delete h =>
    rcases st with ⟨hs, rfl, rfl⟩ | ⟨hs, rfl, rfl⟩
    · intro h' k' v' e
      by_cases e1 : h' = h
      · simp [if_pos e1] at e
      · simp only [if_neg e1] at e; exact hT _ _ _ e
    · exact hT
  | modify h v =>
    rcases st with ⟨k, v', hs, rfl, rfl⟩ | ⟨hs, rfl, rfl⟩
    · intro h' k' v' e
      by_cases e1 : h' = h
      · simp only [if_pos e1, Option.some.injEq, Prod.mk.injEq] at e; rw [← e.2]; exact hop
      · simp only [if_neg e1] at e; exact hT _ _ _ e
    · exact hT
  | get h => obtain ⟨rfl, -⟩ := st; exact hT
  | retrieve key => obtain ⟨rfl, -⟩ := st; exact hT
  | lookup q n t => obtain ⟨rfl, -⟩ := st; exact hT
  | handles => obtain ⟨rfl, -⟩ := st; exact hT
  | count => obtain ⟨rfl, -⟩ := st; exact hT
  | reset => obtain ⟨rfl, -⟩ := st; intro h k v e; simp at e
  | setTtl h a b => obtain ⟨rfl, -⟩ := st; exact hT
  | writeCounters h a b => obtain ⟨rfl, -⟩ := st; exact hT

theorem Live.perm {l l' : List Nat} (h : Live T l) (h' : Live T l') : l.Perm l' :=
  (List.perm_ext_iff_of_nodup h.1 h'.1).2 fun a => by rw [h.2, h'.2]

end Map

namespace MT
variable {K R : Type} {L : LookupStr K} {sp : MatchSpec K} {W : Laws L sp}

/-! ## Executing calls -/

/-- Translation of the error codes. -/
def Code.out : Code → AOut K
  | .unit c => liftOut (V := Unit) c.out
  | .badActionData => .err .badData
  | .immutableEntries => .err .constEntries
  | .defaultEntryConst => .err .constEntry
  | .defaultActionConst => .err .constAction
  | .noDefaultEntry => .err .noDefault

/-- A reported entry; one without an action does not exist in the interface. -/
def entryOut (h : Nat) : MCode × Option (K × Option ActFn × List Int) → Option (AOut K)
  | (_, some (k, some f, data)) => some (.entry h k f data)
  | (_, some (_, none, _)) => none
  | (c, none) => some (Code.out (.unit c))

/-- The same for entries looked up by key. -/
def keyOut : MCode × Option (Nat × K × Option ActFn × List Int) → Option (AOut K)
  | (c, some (h, e)) => entryOut h (c, some e)
  | (c, none) => some (Code.out (.unit c))

/-- An element of the list of entries. -/
def elemOut (e : Nat × K × Option ActFn × List Int) : Option (Nat × K × ActFn × List Int) :=
  e.2.2.1.map fun f => (e.1, e.2.1, f, e.2.2.2)

/-- Execute one call. -/
def Tab.exec (t : Tab L R) : AOp K → Option (AOut K × Tab L R)
  | .add k f data now => (t.addEntry k f data now).map fun r =>
      (if r.1.1 = .unit .success then .handle r.1.2 else r.1.1.out, r.2)
  | .delete h => (t.deleteEntry h).map fun r => (r.1.out, r.2)
  | .modify h f data => (t.modifyEntry h f data).map fun r => (r.1.out, r.2)
  | .setDefault f data => (t.setDefault f data).map fun r => (r.1.out, r.2)
  | .resetDefault => some (.done, t.resetDefault)
  | .get h => ((t.getEntry h).bind (entryOut h)).map fun o => (o, t)
  | .getByKey k => ((t.getEntryFromKey k).bind keyOut).map fun o => (o, t)
  | .entries => (t.getEntries.bind (List.mapM elemOut)).map fun l => (.entries l, t)
  | .getDefault => some (match t.getDefault with | some d => .default d.1 d.2 | none => Code.out .noDefaultEntry, t)
  | .count => some (.num t.numEntries, t)
  | .clear d => some (.done, t.resetState d)
  | .apply q nb ts => (t.apply q nb ts).map fun r => (.ran r.1.act r.1.hit r.1.index r.1.next, r.2)

/-- Execute a history. -/
def Tab.run : Tab L R → List (AOp K) → Option (List (AOut K) × Tab L R)
  | t, [] => some ([], t)
  | t, op :: ops => do
    let r ← t.exec op
    let rs ← run r.2 ops
    return (r.1 :: rs.1, rs.2)

/-! ## The relation -/

def strip (v : ActEntry) : ActFn × List Int := (v.fn.getD ⟨0, 0⟩, v.data)

/-- Entries of the table. -/
def Good (P : TableDecl K) (v : ActEntry) : Prop :=
  ∃ f, v.fn = some f ∧ v.next = P.goto true (some (f, v.data))

/-- Default entries. -/
def DOk (P : TableDecl K) (e : ActEntry) (D : Option (ActFn × List Int)) : Prop :=
  (e.fn.map fun f => (f, e.data)) = D ∧ e.next = P.goto false D

/-- Configurations. -/
structure CfgOk (P : TableDecl K) (imm : Bool) (c : Cfg) : Prop where
  hit : ∀ f ∈ P.actions.map Prod.fst, ∀ d, c.next f.id = some (P.goto true (some (f, d)))
  miss : ∀ f ∈ P.actions.map Prod.fst, ∀ d, c.nextDefault f.id = some (P.goto false (some (f, d)))
  imm : c.immutable = imm
  entry : c.constEntry = true ↔ ∃ d, P.dflt = some d ∧ d.constEntry = true
  action : ∀ f, c.otherAction f = true ↔ ∃ d, P.dflt = some d ∧ d.constAction = true ∧ d.fn ≠ f
  dflt : DOk P c.dfltDflt P.default0

/-- The table represents the state. -/
structure Rep (W : Laws L sp) (P : TableDecl K) (imm : Bool) (t : Tab L R) (s : AState K)
    (E : Nat → Option (K × ActEntry)) : Prop where
  mu : MRep W t.mu E
  T : s.T = mapE strip (t.mu.tab E)
  good : ∀ h k v, t.mu.tab E h = some (k, v) → Good P v
  cfg : CfgOk P imm t.cfg
  D : DOk P t.dflt s.D

theorem strip_good {P : TableDecl K} {v : ActEntry} (h : Good P v) :
    v.fn = some (strip v).1 ∧ (v.fn.map fun f => (f, v.data)) = some (strip v) ∧ v.next = P.goto true (some (strip v)) := by
  obtain ⟨f, e, n⟩ := h
  refine ⟨?_, ?_, ?_⟩
  · simp [strip, e]
  · simp [strip, e]
  · simp [strip, e, n]

variable {P : TableDecl K} {imm : Bool} {t : Tab L R} {s : AState K} {E : Nat → Option (K × ActEntry)}

/-- The outcome of a step. -/
def Rep.Next (W : Laws L sp) (P : TableDecl K) (t : Tab L R) (s : AState K) (op : AOp K)
    (r : Option (AOut K × Tab L R)) : Prop :=
  ∃ out t' s' E', r = some (out, t') ∧ Rep W P P.entries.isSome t' s' E' ∧ t'.mu.size = t.mu.size ∧
    t'.mu.sizeKey = t.mu.sizeKey ∧ AStep P sp t.mu.size (decide (t.mu.sizeKey = 0)) s op s' out

theorem Rep.stay (h : Rep W P P.entries.isSome t s E) {op : AOp K} {out : AOut K} {r}
    (hr : r = some (out, t)) (st : AStep P sp t.mu.size (decide (t.mu.sizeKey = 0)) s op s out) :
    Rep.Next W P t s op r :=
  ⟨out, t, s, E, hr, h, rfl, rfl, st⟩

/-- A call on the entries. -/
theorem Rep.onEntries (h : Rep W P imm t s E) (op : TOp K ActEntry) (hv : op.Valid sp)
    (hw : op.Writes (Good P)) :
    ∃ out mu' E', t.mu.exec op = some (out, mu') ∧ mu'.size = t.mu.size ∧ mu'.sizeKey = t.mu.sizeKey ∧
      Rep W P imm { t with mu := mu' } { s with T := mapE strip (mu'.tab E') } E' ∧
      TStep sp t.mu.size (decide (t.mu.sizeKey = 0)) (t.mu.tab E) op (mu'.tab E') out := by
  obtain ⟨out, mu', E', e, st⟩ := h.mu.exec op hv
  exact ⟨out, mu', E', e, st.size, st.sizeKey,
    ⟨st.rep, rfl, st.spec.values hw h.good, h.cfg, h.D⟩, st.spec⟩

theorem Rep.spec (h : Rep W P imm t s E) {op : TOp K ActEntry} {T' out size kl}
    (st : TStep sp size kl (t.mu.tab E) op T' out) :
    TStep sp size kl s.T (op.map strip) (mapE strip T') (out.map strip) := by
  rw [h.T]; exact st.map strip

theorem liftOut_map {V V' : Type} (f : V → V') (o : TOut K V) : liftOut (o.map f) = liftOut o := by
  cases o <;> rfl

theorem code_out {V : Type} (c : MCode) : (Code.out (.unit c) : AOut K) = liftOut (V := V) c.out := by
  cases c <;> rfl

theorem Rep.add (h : Rep W P imm t s E) (hi : imm = false) (k : Option K) (f : ActFn) (data : List Int) (now : Nat)
    (hk : ∀ k', k = some k' → sp.okK k') (hf : f ∈ P.actions.map Prod.fst) (hd : data.length = f.nparams) :
    ∃ c hd' mu' E' o, t.addEntry k f data now = some ((.unit c, hd'), { t with mu := mu' }) ∧
      mu'.size = t.mu.size ∧ mu'.sizeKey = t.mu.sizeKey ∧
      Rep W P imm { t with mu := mu' } { s with T := mapE strip (mu'.tab E') } E' ∧
      TStep sp t.mu.size (decide (t.mu.sizeKey = 0)) s.T (.add k (f, data) now) (mapE strip (mu'.tab E')) o ∧
      o = (if c = .success then .handle hd' else c.out) := by
  have hn := h.cfg.hit f hf data
  obtain ⟨o, mu', E', e, h1, h2, hr, st⟩ := h.onEntries
    (.add k { fn := some f, data, next := P.goto true (some (f, data)) } now)
    (by cases k with
        | none => trivial
        | some k => exact hk k rfl)
    ⟨f, rfl, rfl⟩
  obtain ⟨⟨⟨c, hd'⟩, mu''⟩, e1, e2⟩ := Option.map_eq_some_iff.1 e
  simp only [Prod.mk.injEq] at e2
  obtain ⟨rfl, rfl⟩ := e2
  refine ⟨c, hd', mu'', E', _, ?_, h1, h2, hr, h.spec st, ?_⟩
  · have : t.cfg.immutable = false := by rw [h.cfg.imm, hi]
    simp [Tab.addEntry, this, hd, hn, e1]
  · by_cases hc : c = .success
    · simp [hc, TOut.map]
    · simp only [if_neg hc]
      cases c <;> first | exact absurd rfl hc | rfl

theorem Rep.exec (h : Rep W P P.entries.isSome t s E) (op : AOp K) (hv : op.Valid P sp) :
    Rep.Next W P t s op (t.exec op) := by
  cases op with
  | add k f data now =>
    by_cases hi : P.entries.isSome = true
    · refine h.stay (out := .err .constEntries) ?_ ?_
      · simp [Tab.exec, Tab.addEntry, h.cfg.imm, hi, Code.out]
      · simp [AStep, hi]
    by_cases hd : data.length = f.nparams
    · obtain ⟨c, hd', mu', E', o, e, h1, h2, hr, st, ho⟩ := h.add (by simpa using hi) k f data now hv.1 hv.2 hd
      refine ⟨_, _, _, E', by rw [Tab.exec, e]; rfl, hr, h1, h2, ?_⟩
      simp only [AStep, if_neg hi, hd, ne_eq, not_true_eq_false, if_false]
      refine ⟨o, st, rfl, ?_⟩
      rw [ho]
      by_cases hc : c = .success
      · simp [hc, liftOut]
      · simp only [if_neg hc, Code.unit.injEq]
        exact code_out c
    · refine h.stay (out := .err .badData) ?_ ?_
      · simp [Tab.exec, Tab.addEntry, h.cfg.imm, hi, hd, Code.out]
      · simp [AStep, hi, hd]
  | delete hd =>
    by_cases hi : P.entries.isSome = true
    · refine h.stay (out := .err .constEntries) ?_ ?_
      · simp [Tab.exec, Tab.deleteEntry, h.cfg.imm, hi, Code.out]
      · simp [AStep, hi]
    obtain ⟨o, mu', E', e, h1, h2, hr, st⟩ := h.onEntries (.delete hd) trivial trivial
    obtain ⟨⟨c, mu''⟩, e1, e2⟩ := Option.map_eq_some_iff.1 e
    simp only [Prod.mk.injEq] at e2
    obtain ⟨rfl, rfl⟩ := e2
    refine ⟨Code.out (.unit c), _, _, E', ?_, hr, h1, h2, ?_⟩
    · have : t.cfg.immutable = false := by rw [h.cfg.imm]; simpa using hi
      simp [Tab.exec, Tab.deleteEntry, this, e1]
    · simp only [AStep, if_neg hi]
      exact ⟨_, h.spec st, rfl, by rw [liftOut_map]; exact code_out c⟩
  | modify hd f data =>
    by_cases hi : P.entries.isSome = true
    · refine h.stay (out := .err .constEntries) ?_ ?_
      · simp [Tab.exec, Tab.modifyEntry, h.cfg.imm, hi, Code.out]
      · simp [AStep, hi]
    by_cases hl : data.length = f.nparams
    · have hn := h.cfg.hit f hv data
      obtain ⟨o, mu', E', e, h1, h2, hr, st⟩ := h.onEntries
        (.modify hd { fn := some f, data, next := P.goto true (some (f, data)) }) trivial ⟨f, rfl, rfl⟩
      obtain ⟨⟨c, mu''⟩, e1, e2⟩ := Option.map_eq_some_iff.1 e
      simp only [Prod.mk.injEq] at e2
      obtain ⟨rfl, rfl⟩ := e2
      refine ⟨Code.out (.unit c), _, _, E', ?_, hr, h1, h2, ?_⟩
      · have : t.cfg.immutable = false := by rw [h.cfg.imm]; simpa using hi
        simp [Tab.exec, Tab.modifyEntry, this, hl, hn, e1]
      · simp only [AStep, if_neg hi, hl, ne_eq, not_true_eq_false, if_false]
        exact ⟨_, h.spec st, rfl, by rw [liftOut_map]; exact code_out c⟩
    · refine h.stay (out := .err .badData) ?_ ?_
      · simp [Tab.exec, Tab.modifyEntry, h.cfg.imm, hi, hl, Code.out]
      · simp [AStep, hi, hl]
  | setDefault f data =>
    by_cases h1 : t.cfg.constEntry = true
    · refine h.stay (out := .err .constEntry) ?_ ?_
      · simp [Tab.exec, Tab.setDefault, h1, Code.out]
      · simp only [AStep, if_pos (h.cfg.entry.1 h1)]; simp
    by_cases h2 : t.cfg.otherAction f = true
    · refine h.stay (out := .err .constAction) ?_ ?_
      · simp [Tab.exec, Tab.setDefault, h1, h2, Code.out]
      · simp only [AStep, if_neg (h.cfg.entry.not.1 h1), if_pos ((h.cfg.action f).1 h2)]; simp
    by_cases hl : data.length = f.nparams
    · have hn := h.cfg.miss f hv data
      refine ⟨.done, { t with dflt := { fn := some f, data, next := P.goto false (some (f, data)) } },
        { s with D := some (f, data) }, E, ?_, ⟨h.mu, h.T, h.good, h.cfg, ?_⟩, rfl, rfl, ?_⟩
      · simp [Tab.exec, Tab.setDefault, h1, h2, hl, hn, Code.out, MCode.out, liftOut]
      · exact ⟨rfl, rfl⟩
      · simp only [AStep, if_neg (h.cfg.entry.not.1 h1), if_neg ((h.cfg.action f).not.1 h2), hl]; simp
    · refine h.stay (out := .err .badData) ?_ ?_
      · simp [Tab.exec, Tab.setDefault, h1, h2, hl, Code.out]
      · simp only [AStep, if_neg (h.cfg.entry.not.1 h1), if_neg ((h.cfg.action f).not.1 h2)]; simp [hl]
  | resetDefault =>
    exact ⟨.done, t.resetDefault, { s with D := P.default0 }, E, rfl, ⟨h.mu, h.T, h.good, h.cfg, h.cfg.dflt⟩,
      rfl, rfl, rfl, rfl⟩
  | get hd =>
    cases ht : t.mu.tab E hd with
    | none =>
      obtain ⟨c, e, hc⟩ := h.mu.get_stale hd ht
      refine h.stay (out := .err (.table .stale)) ?_ ⟨rfl, ?_⟩
      · rcases hc with rfl | rfl <;> simp [Tab.exec, Tab.getEntry, e, entryOut, Code.out, MCode.out, liftOut]
      · rw [h.T, mapE_none.2 ht]
    | some kv =>
      obtain ⟨k, v⟩ := kv
      obtain ⟨g1, -, -⟩ := strip_good (h.good _ _ _ ht)
      refine h.stay (out := .entry hd k (strip v).1 (strip v).2) ?_ ⟨rfl, ?_⟩
      · simp [Tab.exec, Tab.getEntry, h.mu.get_live hd ht, entryOut, g1]; rfl
      · rw [h.T, mapE_some.2 ⟨v, ht, rfl⟩]
  | getByKey key =>
    cases key with
    | none =>
      refine h.stay (out := .err (.table .badKey)) ?_ ⟨rfl, .inr ⟨by simp, rfl⟩⟩
      simp [Tab.exec, Tab.getEntryFromKey, MUnit.retrieveHandle, keyOut, Code.out, MCode.out, liftOut]
    | some k =>
      rcases h.mu.retrieve k (hv k rfl) with ⟨hd, k', v', ht, hs, e⟩ | ⟨hs, e⟩
      · obtain ⟨g1, -, -⟩ := strip_good (h.good _ _ _ ht)
        refine h.stay (out := .entry hd k' (strip v').1 (strip v').2) ?_
          ⟨rfl, .inl ⟨k, hd, k', (strip v').1, (strip v').2, rfl, ?_, hs, rfl⟩⟩
        · simp [Tab.exec, Tab.getEntryFromKey, e, Tab.getEntry, h.mu.get_live hd ht, keyOut, entryOut, g1]; rfl
        · rw [h.T]; exact mapE_some.2 ⟨v', ht, rfl⟩
      · refine h.stay (out := .err (.table .badKey)) ?_ ⟨rfl, .inr ⟨?_, rfl⟩⟩
        · simp [Tab.exec, Tab.getEntryFromKey, e, keyOut, Code.out, MCode.out, liftOut]
        · intro k' hk'
          simp only [Option.some.injEq] at hk'
          rw [← hk', h.T, hasSame_mapE]; exact hs
  | entries =>
    obtain ⟨l, e, hl⟩ := h.mu.handleList
    obtain ⟨l', hl', hn⟩ := h.mu.live_count
    have hlen : l.length = t.mu.numEntries := by rw [← hn]; exact (Live.perm hl hl').length_eq
    have hm : ∀ l : List Nat, (∀ hd ∈ l, (t.mu.tab E hd).isSome = true) →
        ∃ r r', l.mapM t.entryOf = some r ∧ r.mapM elemOut = some r' ∧ r'.map Prod.fst = l ∧
          ∀ x ∈ r', s.T x.1 = some x.2 := by
      intro l
      induction l with
      | nil => intro _; exact ⟨[], [], rfl, rfl, rfl, by simp⟩
      | cons hd l ih =>
        intro hs
        obtain ⟨⟨k, v⟩, ht⟩ := Option.isSome_iff_exists.1 (hs hd (by simp))
        obtain ⟨r, r', e1, e2, e3, e4⟩ := ih (fun x hx => hs x (by simp [hx]))
        obtain ⟨g1, -, -⟩ := strip_good (h.good _ _ _ ht)
        refine ⟨(hd, k, v.fn, v.data) :: r, (hd, k, (strip v).1, (strip v).2) :: r', ?_, ?_, by simp [e3], ?_⟩
        · simp [List.mapM_cons, Tab.entryOf, Tab.getEntry, h.mu.get_live hd ht, e1]
        · simp [List.mapM_cons, elemOut, e2, g1]; rfl
        · intro x hx
          rcases List.mem_cons.1 hx with rfl | hx
          · rw [h.T]; exact mapE_some.2 ⟨v, ht, rfl⟩
          · exact e4 x hx
    obtain ⟨r, r', e1, e2, e3, e4⟩ := hm l (fun hd hh => (hl.2 hd).1 hh)
    refine h.stay (out := .entries r') ?_ ⟨rfl, r', rfl, ?_, e4⟩
    · simp [Tab.exec, Tab.getEntries, e, hlen, e1, e2]
    · rw [e3, h.T]; exact live_mapE.2 hl
  | getDefault =>
    cases hD : s.D with
    | none =>
      refine h.stay (out := .err .noDefault) ?_ ⟨rfl, by rw [hD]⟩
      have := h.D.1
      rw [hD] at this
      simp [Tab.exec, Tab.getDefault, this, Code.out]
    | some d =>
      refine h.stay (out := .default d.1 d.2) ?_ ⟨rfl, by rw [hD]⟩
      have := h.D.1
      rw [hD] at this
      simp [Tab.exec, Tab.getDefault, this]
  | count =>
    obtain ⟨o, mu', E', e, h1, h2, hr, st⟩ := h.onEntries .count trivial trivial
    simp only [MUnit.exec, Option.some.injEq, Prod.mk.injEq] at e
    obtain ⟨rfl, rfl⟩ := e
    obtain ⟨-, l, hl, -, ho⟩ := h.spec st
    refine h.stay (out := .num l.length) ?_ ⟨rfl, l, hl, rfl⟩
    simp only [TOut.map, TOut.num.injEq] at ho
    simp [Tab.exec, Tab.numEntries, ho]
  | clear d =>
    refine ⟨.done, t.resetState d, ⟨fun _ => none, if d then P.default0 else s.D⟩, fun _ => none, rfl,
      ⟨h.mu.resetState, ?_, ?_, h.cfg, ?_⟩, rfl, rfl, rfl, rfl⟩
    · funext hd; simp [mapE, MUnit.tab]
    · intro hd k v e; simp [MUnit.tab] at e
    · cases d
      · exact h.D
      · exact h.cfg.dflt
  | apply q nb ts =>
    obtain ⟨o, mu', E', e, h1, h2, hr, st⟩ := h.onEntries (.lookup q nb ts) hv trivial
    obtain ⟨⟨c, mu''⟩, e1, e2⟩ := Option.map_eq_some_iff.1 e
    simp only [Prod.mk.injEq] at e2
    obtain ⟨rfl, rfl⟩ := e2
    have hs := h.spec st
    have hTT : s = { s with T := mapE strip (mu''.tab E') } := by
      have := hs.1
      rw [this]
    rw [← hTT] at hr
    cases c with
    | miss =>
      refine ⟨.ran s.D none (2 ^ 64 - 1) (P.goto false s.D), { t with mu := mu'' }, s, E', ?_, hr, h1, h2,
        rfl, .inl ⟨?_, rfl⟩⟩
      · obtain ⟨d1, d2⟩ := h.D
        simp [Tab.exec, Tab.apply, Tab.lookup, e1, invalidIndex, d1, d2]
      · obtain ⟨-, ⟨-, hm⟩ | ⟨_, _, _, ho, _⟩⟩ := hs
        · exact hm
        · simp [TOut.map] at ho
    | hit hd v =>
      obtain ⟨-, ⟨ho, -⟩ | ⟨hd', k, v', ho, ht, hm, hb⟩⟩ := st
      · simp at ho
      · simp only [TOut.hit.injEq] at ho
        obtain ⟨rfl, rfl⟩ := ho
        obtain ⟨-, g2, g3⟩ := strip_good (h.good _ _ _ ht)
        refine ⟨.ran (some (strip v)) (some hd) (slotOf hd) (P.goto true (some (strip v))),
          { t with mu := mu'' }, s, E', ?_, hr, h1, h2, rfl, .inr ⟨hd, k, strip v, ?_, hm, ?_, rfl⟩⟩
        · have : hd &&& 0x00ffffff = slotOf hd := by
            rw [show (0x00ffffff : Nat) = 2 ^ 24 - 1 from rfl, Nat.and_two_pow_sub_one_eq_mod]; rfl
          simp [Tab.exec, Tab.apply, Tab.lookup, e1, g2, g3]
          exact this
        · rw [h.T]; exact mapE_some.2 ⟨v, ht, rfl⟩
        · intro h' k' a' hh
          rw [h.T] at hh
          obtain ⟨v', hv', -⟩ := mapE_some.1 hh
          exact hb h' k' v' hv'

theorem Rep.run (ops : List (AOp K)) : ∀ {t : Tab L R} {s : AState K} {E},
    Rep W P P.entries.isSome t s E → (∀ op ∈ ops, op.Valid P sp) →
    ∃ outs t' s' E', t.run ops = some (outs, t') ∧ Rep W P P.entries.isSome t' s' E' ∧
      ATrace P sp t.mu.size (decide (t.mu.sizeKey = 0)) s ops outs s' := by
  induction ops with
  | nil => intro t s E h _; exact ⟨[], t, s, E, rfl, h, .nil s⟩
  | cons op ops ih =>
    intro t s E h hv
    obtain ⟨o, t1, s1, E1, e1, r1, z1, k1, st⟩ := h.exec op (hv op (by simp))
    obtain ⟨os, t2, s2, E2, e2, r2, tr⟩ := ih r1 (fun o ho => hv o (by simp [ho]))
    rw [z1, k1] at tr
    exact ⟨o :: os, t2, s2, E2, by simp [Tab.run, e1, e2], r2, .cons st tr⟩

/-! ## Loading -/

/-- The node of an action in a list. -/
def nextIn (l : List (ActFn × Option Nat)) (g : Nat → Option (Option Nat)) (i : Nat) : Option (Option Nat) :=
  match l.find? (fun x => x.1.id = i) with
  | some x => some x.2
  | none => g i

theorem foldl_setNext (l : List (ActFn × Option Nat)) (hn : (l.map fun x => x.1.id).Nodup) : ∀ t : Tab L R,
    l.foldl (fun t x => t.setNext x.1.id x.2) t = 
      { t with cfg := { t.cfg with nextNodes := nextIn l t.cfg.nextNodes } } := by
  induction l with
  | nil => intro t; rfl
  | cons x l ih =>
    intro t
    simp only [List.map_cons, List.nodup_cons] at hn
    rw [List.foldl_cons, ih hn.2]
    simp only [Tab.setNext]
    congr 2
    funext i
    simp only [nextIn, List.find?_cons]
    by_cases hi : x.1.id = i
    · have : l.find? (fun y => y.1.id = i) = none := by
        rw [List.find?_eq_none]
        intro y hy h
        apply hn.1
        rw [hi, ← of_decide_eq_true h]
        exact List.mem_map_of_mem (f := fun x : ActFn × Option Nat => x.1.id) hy
      simp [this, hi]
    · simp [hi, Ne.symm hi]

/-- Configurations before the default entry is loaded. -/
structure PreCfg (P : TableDecl K) (t : Tab L R) : Prop where
  hit : ∀ id n, t.cfg.next id = some n → ∀ f d, f.id = id → n = P.goto true (some (f, d))
  miss : ∀ id n, t.cfg.nextDefault id = some n → ∀ f d, f.id = id → n = P.goto false (some (f, d))
  hit' : ∀ f ∈ P.actions.map Prod.fst, ∃ n, t.cfg.next f.id = some n
  miss' : ∀ f ∈ P.actions.map Prod.fst, ∃ n, t.cfg.nextDefault f.id = some n
  imm : t.cfg.immutable = false
  ce : t.cfg.constEntry = false
  ca : t.cfg.constAction = none
  dd : t.cfg.dfltDflt = { next := P.goto false none }
  d : t.dflt = { next := P.goto false none }

theorem preCfg (L : LookupStr K) (P : TableDecl K) (hi : (P.actions.map fun x => x.1.id).Nodup) (size sizeKey : Nat) (meters : Nat → R) :
    let t := (((P.actions.foldl (fun t x => t.setNext x.1.id x.2) (Tab.init L size sizeKey meters)).loadHitMiss
      P.hitMiss).loadBase P.base)
    PreCfg P t ∧ t.mu = MUnit.init L ActEntry size sizeKey meters := by
  intro t
  have hfind : ∀ f ∈ P.actions.map Prod.fst, ∃ x, P.actions.find? (fun x => x.1.id = f.id) = some x := by
    intro f hf
    obtain ⟨x, hx, rfl⟩ := List.mem_map.1 hf
    have : (P.actions.find? (fun y => y.1.id = x.1.id)).isSome = true := by
      rw [List.find?_isSome]; exact ⟨x, hx, by simp⟩
    exact Option.isSome_iff_exists.1 this
  have ht : t = (((P.actions.foldl (fun t x => t.setNext x.1.id x.2) (Tab.init L size sizeKey meters)).loadHitMiss
      P.hitMiss).loadBase P.base) := rfl
  rw [foldl_setNext P.actions hi] at ht
  clear_value t
  subst ht
  cases hm : P.hitMiss with
  | none =>
    refine ⟨⟨?_, ?_, ?_, ?_, ?_, ?_, ?_, ?_, ?_⟩, ?_⟩
    · intro id n e f d hf
      cases hb : P.base <;>
        simp only [hb, Tab.loadHitMiss, Tab.loadBase, Tab.setNextMissDefault, Tab.setDD, Tab.init, Cfg.next, nextIn,
          Bool.false_eq_true, if_false] at e <;>
        simp only [TableDecl.goto, hm, TableDecl.after, hf] <;>
        cases hx : P.actions.find? (fun x => x.1.id = id) <;> simp only [hx] at e ⊢ <;> simp_all
    · intro id n e f d hf
      cases hb : P.base <;>
        simp only [hb, Tab.loadHitMiss, Tab.loadBase, Tab.setNextMissDefault, Tab.setDD, Tab.init, Cfg.nextDefault, nextIn,
          Bool.false_eq_true, if_false] at e <;>
        simp only [TableDecl.goto, hm, TableDecl.after, hf] <;>
        cases hx : P.actions.find? (fun x => x.1.id = id) <;> simp only [hx] at e ⊢ <;> simp_all
    · intro f hf
      obtain ⟨x, hx⟩ := hfind f hf
      refine ⟨x.2, ?_⟩
      cases hb : P.base <;> simp [Tab.loadHitMiss, Tab.loadBase, Tab.setNextMissDefault, Tab.setDD, Tab.init, Cfg.next, nextIn,
        hx]
    · intro f hf
      obtain ⟨x, hx⟩ := hfind f hf
      refine ⟨x.2, ?_⟩
      cases hb : P.base <;>
        simp [Tab.loadHitMiss, Tab.loadBase, Tab.setNextMissDefault, Tab.setDD, Tab.init, Cfg.nextDefault, nextIn, hx]
    all_goals
      cases hb : P.base <;>
        simp [Tab.loadHitMiss, Tab.loadBase, Tab.setNextMissDefault, Tab.setDD, Tab.init, TableDecl.goto, hm, hb]
  | some nm =>
    obtain ⟨h, m⟩ := nm
    refine ⟨⟨?_, ?_, ?_, ?_, ?_, ?_, ?_, ?_, ?_⟩, ?_⟩
    · intro id n e f d hf
      cases hb : P.base <;>
        simp [hb, Tab.loadHitMiss, Tab.loadBase, Tab.setNextMissDefault, Tab.setDD, Tab.init, Cfg.next, Tab.setNextHit,
          Tab.setNextMiss] at e <;>
        simp [TableDecl.goto, hm, e]
    · intro id n e f d hf
      cases hb : P.base <;>
        simp [hb, Tab.loadHitMiss, Tab.loadBase, Tab.setNextMissDefault, Tab.setDD, Tab.init, Cfg.nextDefault,
          Tab.setNextHit, Tab.setNextMiss] at e <;>
        simp [TableDecl.goto, hm, e]
    · intro f hf
      refine ⟨h, ?_⟩
      cases hb : P.base <;>
        simp [Tab.loadHitMiss, Tab.loadBase, Tab.setNextMissDefault, Tab.setDD, Tab.init, Cfg.next, Tab.setNextHit,
          Tab.setNextMiss]
    · intro f hf
      refine ⟨m, ?_⟩
      cases hb : P.base <;>
        simp [Tab.loadHitMiss, Tab.loadBase, Tab.setNextMissDefault, Tab.setDD, Tab.init, Cfg.nextDefault, Tab.setNextHit,
          Tab.setNextMiss]
    all_goals
      cases hb : P.base <;>
        simp [Tab.loadHitMiss, Tab.loadBase, Tab.setNextMissDefault, Tab.setDD, Tab.init, TableDecl.goto, hm,
          Tab.setNextHit, Tab.setNextMiss]

/-- The default entry. -/
theorem loadDefault_ok {t t' : Tab L R} (h : PreCfg P t) (e : t.loadDefault P.dflt = some t') :
    CfgOk P false t'.cfg ∧ DOk P t'.dflt P.default0 ∧ t'.mu = t.mu := by
  have H1 : ∀ f ∈ P.actions.map Prod.fst, ∀ d, t.cfg.next f.id = some (P.goto true (some (f, d))) := by
    intro f hf d
    obtain ⟨n, hn⟩ := h.hit' f hf
    rw [hn, h.hit _ _ hn f d rfl]
  have H2 : ∀ f ∈ P.actions.map Prod.fst, ∀ d, t.cfg.nextDefault f.id = some (P.goto false (some (f, d))) := by
    intro f hf d
    obtain ⟨n, hn⟩ := h.miss' f hf
    rw [hn, h.miss _ _ hn f d rfl]
  cases hd : P.dflt with
  | none =>
    rw [hd] at e
    simp only [Tab.loadDefault, Option.some.injEq] at e
    subst e
    have hd0 : P.default0 = none := by simp [TableDecl.default0, hd]
    refine ⟨⟨H1, H2, h.imm, by simp [h.ce, hd], ?_, ?_⟩, ?_, rfl⟩
    · intro f; simp [Cfg.otherAction, h.ca, hd]
    · rw [hd0, h.dd]; exact ⟨rfl, rfl⟩
    · rw [hd0, h.d]; exact ⟨rfl, rfl⟩
  | some d =>
    have hd0 : P.default0 = some (d.fn, d.data) := by simp [TableDecl.default0, hd]
    rw [hd] at e
    simp only [Tab.loadDefault, Option.bind_eq_bind] at e
    obtain ⟨t1, e1, e2⟩ := Option.bind_eq_some_iff.1 e
    have hc : t1 = { t with cfg := { t.cfg with constAction := if d.constAction then some d.fn else none } } := by
      by_cases hca : d.constAction = true
      · simp [Tab.loadConst, hca, Tab.setConstAction, h.ca] at e1
        rw [← e1]; simp [hca]
      · simp [Tab.loadConst, hca] at e1
        rw [← e1]; simp [hca, ← h.ca]
    have hn : t1.cfg.nextDefault = t.cfg.nextDefault := by rw [hc]; rfl
    by_cases hl : d.data.length = d.fn.nparams
    · simp only [Tab.setDefaultDefault, if_pos hl, Option.bind_eq_bind] at e2
      obtain ⟨n, e3, e4⟩ := Option.bind_eq_some_iff.1 e2
      rw [hn] at e3
      have hnn := h.miss _ _ e3 d.fn d.data rfl
      simp only [Option.pure_def, Option.some.injEq] at e4
      subst e4 hc
      simp only [Tab.setDD]
      refine ⟨⟨H1, H2, h.imm, by simp [hd], ?_, ?_⟩, ?_, trivial⟩
      · intro f
        by_cases hca : d.constAction = true <;> simp [Cfg.otherAction, hd, hca]
      · rw [hd0]; exact ⟨rfl, hnn⟩
      · rw [hd0]; exact ⟨rfl, hnn⟩
    · simp [Tab.setDefaultDefault, hl] at e2

theorem loadEntries_ok (l : List (K × ActFn × List Int))
    (hl : ∀ e ∈ l, sp.okK e.1 ∧ e.2.1 ∈ P.actions.map Prod.fst) : ∀ {t t' : Tab L R} {s : AState K} {E} {hs : List Nat}
    {l0 : List (K × ActFn × List Int)}, Rep W P false t s E → Live s.T hs →
    hs.map s.T = l0.map (fun e => some (e.1, e.2.1, e.2.2)) → l.foldlM Tab.loadEntry t = some t' →
    ∃ s' E' hs', Rep W P false t' s' E' ∧ t'.mu.size = t.mu.size ∧ t'.mu.sizeKey = t.mu.sizeKey ∧ s'.D = s.D ∧
      Live s'.T hs' ∧ hs'.map s'.T = (l0 ++ l).map (fun e => some (e.1, e.2.1, e.2.2)) := by
  induction l with
  | nil =>
    intro t t' s E hs l0 h h1 h2 e
    simp only [List.foldlM_nil, Option.pure_def, Option.some.injEq] at e
    subst e
    exact ⟨s, E, hs, h, rfl, rfl, rfl, h1, by simpa using h2⟩
  | cons x l ih =>
    intro t t' s E hs l0 h h1 h2 e
    rw [List.foldlM_cons, Option.bind_eq_bind] at e
    obtain ⟨t1, e1, e2⟩ := Option.bind_eq_some_iff.1 e
    obtain ⟨k, f, data⟩ := x
    obtain ⟨hk, hf⟩ := hl (k, f, data) (by simp)
    by_cases hd : data.length = f.nparams
    · obtain ⟨c, hd', mu', E', o, ea, z1, z2, hr, st, ho⟩ :=
        h.add rfl (some k) f data 0 (by rintro k' hk'; cases hk'; exact hk) hf hd
      by_cases hc : c = .success
      · subst hc
        simp only [if_true] at ho
        subst ho
        simp only [Tab.loadEntry, ea, Option.bind_eq_bind, Option.bind_some, Option.some.injEq] at e1
        subst e1
        have st' : ∃ _ : s.T hd' = none, mapE strip (mu'.tab E') = fun h' => if h' = hd' then some (k, f, data) else s.T h' := by
          cases hkl : decide (t.mu.sizeKey = 0) with
          | true => rw [hkl] at st; simp [TStep] at st
          | false =>
            rw [hkl] at st
            simp only [TStep] at st
            rcases st with ⟨_, ho, _⟩ | ⟨_, _, ho, _⟩ | ⟨_, _, hh, ho, _, hn, _, hT⟩
            · simp at ho
            · simp at ho
            · simp only [TOut.handle.injEq] at ho
              subst ho
              exact ⟨hn, hT⟩
        obtain ⟨hnone, hT⟩ := st'
        have hnot : hd' ∉ hs := by
          intro hm
          have := (h1.2 hd').1 hm
          rw [hnone] at this; simp at this
        obtain ⟨s', E2, hs', r1, r2, r3, r4, r5, r6⟩ := ih (fun e he => hl e (by simp [he])) (hs := hs ++ [hd'])
          (l0 := l0 ++ [(k, f, data)]) hr
          (by
            refine ⟨?_, ?_⟩
            · rw [List.nodup_append]
              refine ⟨h1.1, by simp, ?_⟩
              intro a ha b hb
              simp only [List.mem_singleton] at hb
              subst hb
              rintro rfl
              exact hnot ha
            · intro a
              rw [hT, List.mem_append, List.mem_singleton, h1.2 a]
              by_cases ha : a = hd' <;> simp [ha])
          (by
            rw [hT, List.map_append, List.map_append]
            congr 1
            · rw [← h2]
              apply List.map_congr_left
              intro a ha
              have : a ≠ hd' := by rintro rfl; exact hnot ha
              simp [this]
            · simp) e2
        exact ⟨s', E2, hs', r1, r2.trans z1, r3.trans z2, r4, r5, by simpa using r6⟩
      · exfalso
        simp only [Tab.loadEntry, ea, Option.bind_eq_bind, Option.bind_some] at e1
        cases c <;> simp at hc e1
    · exfalso
      simp [Tab.loadEntry, Tab.addEntry, h.cfg.imm, hd] at e1

/-- A loaded table represents an initial state. -/
theorem load_ok (W : Laws L sp) (P : TableDecl K) (hw : P.WF sp) {size sizeKey : Nat} (hs : size ≤ 2 ^ 24)
    (meters : Nat → R) {t : Tab L R} (e : Tab.load L size sizeKey meters P = some t) :
    ∃ s E, Rep W P P.entries.isSome t s E ∧ P.Start s ∧ t.mu.size = size ∧ t.mu.sizeKey = sizeKey := by
  obtain ⟨hp, hmu⟩ := preCfg L P hw.ids size sizeKey meters
  simp only [Tab.load, Option.bind_eq_bind] at e
  obtain ⟨t1, e1, e2⟩ := Option.bind_eq_some_iff.1 e
  obtain ⟨c1, d1, m1⟩ := loadDefault_ok hp e1
  rw [hmu] at m1
  have hT0 : (t1.mu.tab fun _ => none) = fun _ => none := by funext h; simp [MUnit.tab]
  have hr : Rep W P false t1 ⟨fun _ => none, P.default0⟩ (fun _ => none) := by
    refine ⟨?_, ?_, ?_, c1, d1⟩
    · rw [m1]; exact MRep.init W size sizeKey hs meters
    · rw [hT0]; rfl
    · intro h k v; simp [hT0]
  have hz : t1.mu.size = size ∧ t1.mu.sizeKey = sizeKey := by rw [m1]; exact ⟨rfl, rfl⟩
  cases hE : P.entries with
  | none =>
    rw [hE] at e2
    simp only [Tab.loadEntries, Option.some.injEq] at e2
    subst e2
    exact ⟨_, _, hr, ⟨rfl, [], ⟨by simp, by simp⟩, by simp [hE]⟩, hz⟩
  | some l =>
    rw [hE] at e2
    simp only [Tab.loadEntries, Option.bind_eq_bind] at e2
    obtain ⟨t2, e3, e4⟩ := Option.bind_eq_some_iff.1 e2
    simp only [Option.pure_def, Option.some.injEq] at e4
    subst e4
    obtain ⟨s', E', hs', r, r1, r2, r3, r4, r5⟩ := loadEntries_ok (W := W) l (fun e he => hw.entries l hE e he) hr
      (hs := []) (l0 := []) ⟨by simp, by simp⟩ rfl e3
    refine ⟨s', E', ?_, ⟨r3, hs', r4, by simpa [hE] using r5⟩, by simp [Tab.setImmutable, r1, hz.1],
      by simp [Tab.setImmutable, r2, hz.2]⟩
    have c := r.cfg
    exact ⟨r.mu, r.T, r.good, ⟨c.hit, c.miss, rfl, c.entry, c.action, c.dflt⟩, r.D⟩

/-- Loading of the entries succeeds. -/
theorem loadEntries_some (l : List (K × ActFn × List Int))
    (hl : ∀ e ∈ l, sp.okK e.1 ∧ e.2.1 ∈ P.actions.map Prod.fst) (hd : ∀ e ∈ l, e.2.2.length = e.2.1.nparams) :
    ∀ {t : Tab L R} {s : AState K} {E} {hs : List Nat}
    {l0 : List (K × ActFn × List Int)}, Rep W P false t s E → Live s.T hs →
    hs.map s.T = l0.map (fun e => some (e.1, e.2.1, e.2.2)) → (l ≠ [] → t.mu.sizeKey ≠ 0) →
    (l0 ++ l).length ≤ t.mu.size → (l0 ++ l).Pairwise (fun e e' => ¬ sp.same e.1 e'.1) →
    ∃ t', l.foldlM Tab.loadEntry t = some t' := by
  induction l with
  | nil => intros; exact ⟨_, rfl⟩
  | cons x l ih =>
    intro t s E hs l0 h h1 h2 hk hz hp
    obtain ⟨k, f, data⟩ := x
    obtain ⟨ok, hf⟩ := hl (k, f, data) (by simp)
    obtain ⟨c, hd', mu', E', o, ea, z1, z2, hr, st, ho⟩ :=
      h.add rfl (some k) f data 0 (by rintro k' hk'; cases hk'; exact ok) hf (hd (k, f, data) (by simp))
    have hkl : decide (t.mu.sizeKey = 0) = false := by simpa using hk (by simp)
    rw [hkl] at st
    simp only [TStep] at st
    have hlen : hs.length = l0.length := by
      have := congrArg List.length h2
      simpa using this
    rcases st with ⟨⟨a, k', v', ha, hsame⟩, -⟩ | ⟨-, ⟨l', hl', hn⟩, -⟩ | ⟨_, _, hh, hoo, _, hn, _, hT⟩
    · exfalso
      have hm : a ∈ hs := (h1.2 a).2 (by rw [ha]; rfl)
      have : some (k', v') ∈ hs.map s.T := by rw [← ha]; exact List.mem_map_of_mem hm
      rw [h2] at this
      obtain ⟨e, he, heq⟩ := List.mem_map.1 this
      simp only [Option.some.injEq, Prod.mk.injEq] at heq
      refine (List.pairwise_append.1 hp).2.2 e he (k, f, data) (by simp) ?_
      rw [heq.1]; exact hsame
    · exfalso
      have : l'.length = hs.length := (Live.perm hl' h1).length_eq
      simp only [List.length_append, List.length_cons] at hz
      omega
    · have hc : c = .success := by
        by_contra hc
        rw [if_neg hc, hoo] at ho
        cases c <;> simp [MCode.out] at ho
      subst hc
      rw [if_pos rfl, hoo] at ho
      simp only [TOut.handle.injEq] at ho
      subst ho
      have hnot : hh ∉ hs := by
        intro hm
        have := (h1.2 hh).1 hm
        rw [hn] at this; simp at this
      obtain ⟨t', e'⟩ := ih (fun e he => hl e (by simp [he])) (fun e he => hd e (by simp [he])) (hs := hs ++ [hh])
        (l0 := l0 ++ [(k, f, data)]) hr
        (by
          refine ⟨?_, ?_⟩
          · rw [List.nodup_append]
            refine ⟨h1.1, by simp, ?_⟩
            intro a ha b hb
            simp only [List.mem_singleton] at hb
            subst hb
            rintro rfl
            exact hnot ha
          · intro a
            rw [hT, List.mem_append, List.mem_singleton, h1.2 a]
            by_cases ha : a = hh <;> simp [ha])
        (by
          rw [hT, List.map_append, List.map_append]
          congr 1
          · rw [← h2]
            apply List.map_congr_left
            intro a ha
            have : a ≠ hh := by rintro rfl; exact hnot ha
            simp [this]
          · simp)
        (fun _ => by rw [z2]; exact hk (by simp))
        (by rw [z1]; simpa using hz) (by simpa using hp)
      refine ⟨t', ?_⟩
      rw [List.foldlM_cons]
      simp [Tab.loadEntry, ea, e']

theorem loadDefault_some {t : Tab L R} (h : PreCfg P t)
    (hd : ∀ d, P.dflt = some d → d.fn ∈ P.actions.map Prod.fst ∧ d.data.length = d.fn.nparams) :
    ∃ t', t.loadDefault P.dflt = some t' := by
  cases hP : P.dflt with
  | none => exact ⟨t, rfl⟩
  | some d =>
    obtain ⟨hf, hl⟩ := hd d hP
    obtain ⟨n, hn⟩ := h.miss' d.fn hf
    by_cases hca : d.constAction = true
    · have hn' : ({ t.cfg with constAction := some d.fn } : Cfg).nextDefault d.fn.id = some n := hn
      simp [Tab.loadDefault, Tab.loadConst, hca, Tab.setConstAction, h.ca, Tab.setDefaultDefault, hl, hn']
    · simp [Tab.loadDefault, Tab.loadConst, hca, Tab.setDefaultDefault, hl, hn]

theorem load_some (W : Laws L sp) (P : TableDecl K) {size sizeKey : Nat} (hs : size ≤ 2 ^ 24)
    (hw : P.Sound sp size (decide (sizeKey = 0))) (meters : Nat → R) :
    ∃ t : Tab L R, Tab.load L size sizeKey meters P = some t := by
  obtain ⟨hp, hmu⟩ := preCfg L P hw.ids size sizeKey meters
  obtain ⟨t1, e1⟩ := loadDefault_some hp hw.dflt
  obtain ⟨c1, d1, m1⟩ := loadDefault_ok hp e1
  rw [hmu] at m1
  have hT0 : (t1.mu.tab fun _ => none) = fun _ => none := by funext h; simp [MUnit.tab]
  have hr : Rep W P false t1 ⟨fun _ => none, P.default0⟩ (fun _ => none) := by
    refine ⟨?_, ?_, ?_, c1, d1⟩
    · rw [m1]; exact MRep.init W size sizeKey hs meters
    · rw [hT0]; rfl
    · intro h k v; simp [hT0]
  have hz : t1.mu.size = size ∧ t1.mu.sizeKey = sizeKey := by rw [m1]; exact ⟨rfl, rfl⟩
  have key : ∃ t', t1.loadEntries P.entries = some t' := by
    cases hE : P.entries with
    | none => exact ⟨t1, rfl⟩
    | some l =>
      have hg : P.entries.getD [] = l := by rw [hE]; rfl
      have hk := hw.key
      have hda := hw.data
      have hfi := hw.fits
      have hdi := hw.distinct
      rw [hg] at hk hda hfi hdi
      obtain ⟨t', e'⟩ := loadEntries_some (W := W) l (fun e he => hw.entries l hE e he) hda hr
        (hs := []) (l0 := []) ⟨by simp, by simp⟩ rfl
        (fun hne => by rw [hz.2]; simpa using hk hne) (by rw [hz.1]; simpa using hfi) (by simpa using hdi)
      exact ⟨t'.setImmutable, by simp [Tab.loadEntries, e']⟩
  obtain ⟨t', e'⟩ := key
  refine ⟨t', ?_⟩
  simp only [Tab.load, Option.bind_eq_bind]
  exact Option.bind_eq_some_iff.2 ⟨t1, e1, e'⟩

/-! ## Constant entries and defaults, on the specification -/

theorem trace_entries {size kl} (l : List (K × ActFn × List Int)) (hP : P.entries = some l) {s s' : AState K}
    {ops : List (AOp K)} {outs} (tr : ATrace P sp size kl s ops outs s') (hc : ∀ op ∈ ops, ∀ d, op ≠ .clear d) :
    s'.T = s.T := by
  induction tr with
  | nil => rfl
  | @cons s s1 s2 op out ops outs st tr ih =>
    rw [ih fun o ho => hc o (by simp [ho])]
    have hne := hc op (by simp)
    cases op with
    | add k f data now => simp only [AStep, hP] at st; simp at st; rw [st.1]
    | delete h => simp only [AStep, hP] at st; simp at st; rw [st.1]
    | modify h f data => simp only [AStep, hP] at st; simp at st; rw [st.1]
    | setDefault f data =>
      simp only [AStep] at st
      split at st
      · rw [st.1]
      split at st
      · rw [st.1]
      split at st <;> rw [st.1]
    | resetDefault => rw [st.1]
    | get h => rw [st.1]
    | getByKey k => rw [st.1]
    | entries => rw [st.1]
    | getDefault => rw [st.1]
    | count => rw [st.1]
    | clear d => exact absurd rfl (hne d)
    | apply q n t => rw [st.1]

/-- What is kept of a constant default. -/
def DefaultKept (d : DefaultDecl) (D : Option (ActFn × List Int)) : Prop :=
  (d.constEntry = true → D = some (d.fn, d.data)) ∧
  (d.constAction = true → ∃ data, D = some (d.fn, data) ∧ data.length = d.fn.nparams)

theorem trace_default {size kl} (d : DefaultDecl) (hP : P.dflt = some d) (hl : d.data.length = d.fn.nparams)
    {s s' : AState K} {ops : List (AOp K)} {outs} (tr : ATrace P sp size kl s ops outs s') (h : DefaultKept d s.D) :
    DefaultKept d s'.D := by
  have h0 : DefaultKept d P.default0 := by
    have : P.default0 = some (d.fn, d.data) := by simp [TableDecl.default0, hP]
    rw [this]
    exact ⟨fun _ => rfl, fun _ => ⟨_, rfl, hl⟩⟩
  induction tr with
  | nil => exact h
  | @cons s s1 s2 op out ops outs st tr ih =>
    apply ih
    cases op with
    | add k f data now =>
      simp only [AStep] at st
      split at st
      · rw [st.1]; exact h
      split at st
      · rw [st.1]; exact h
      · obtain ⟨_, _, e, _⟩ := st; rw [e]; exact h
    | delete hd =>
      simp only [AStep] at st
      split at st
      · rw [st.1]; exact h
      · obtain ⟨_, _, e, _⟩ := st; rw [e]; exact h
    | modify hd f data =>
      simp only [AStep] at st
      split at st
      · rw [st.1]; exact h
      split at st
      · rw [st.1]; exact h
      · obtain ⟨_, _, e, _⟩ := st; rw [e]; exact h
    | setDefault f data =>
      simp only [AStep] at st
      split at st
      · rw [st.1]; exact h
      rename_i hce
      split at st
      · rw [st.1]; exact h
      rename_i hca
      split at st
      · rw [st.1]; exact h
      rename_i hlen
      rw [st.1]
      refine ⟨fun hc => absurd ⟨d, hP, hc⟩ hce, fun hc => ?_⟩
      have : d.fn = f := by
        by_contra hne
        exact hca ⟨d, hP, hc, hne⟩
      subst this
      exact ⟨data, rfl, by simpa using hlen⟩
    | resetDefault => rw [st.1]; exact h0
    | get _ => rw [st.1]; exact h
    | getByKey k => rw [st.1]; exact h
    | entries => rw [st.1]; exact h
    | getDefault => rw [st.1]; exact h
    | count => rw [st.1]; exact h
    | clear c =>
      rw [st.1]
      cases c
      · exact h
      · exact h0
    | apply q n t => rw [st.1]; exact h

end MT
end Bm
