import Verif.Lemmas.ThriftKeys
import Verif.Lemmas.MatchTable
import Mathlib.Tactic.ByContra

/-! # Lemmas about the table requests of the Thrift server -/

namespace Bm.Thrift
open Bm.Spec Bm.Thrift.Spec Bm.MT

variable {R : Type}

/-! ## Conversions -/

theorem buildParam_means (p : TParam) : buildParam p = TParam.means p := by
  cases p <;> try rfl
  case valid b => cases b <;> rfl

theorem map_buildParam (ps : List TParam) : ps.map buildParam = ps.map TParam.means := by
  apply List.map_congr_left; intro p _; exact buildParam_means p

theorem actionData_nums (data : List Bytes) : actionData data = nums data := by
  unfold actionData nums
  apply List.map_congr_left; intro b _; exact PiEntry.import_nat b

theorem nums_length (data : List Bytes) : (nums data).length = data.length := by simp [nums]

theorem nums_nonneg (data : List Bytes) : ∀ v ∈ nums data, 0 ≤ v := by
  intro v hv
  obtain ⟨b, -, rfl⟩ := List.mem_map.1 hv
  omega

/-- Validity matches are given by one bit. -/
def VBits (ps : List MParam) : Prop := ∀ p ∈ ps, p.type = .valid → p.key = [0] ∨ p.key = [1]

theorem vbits_means (ps : List TParam) : VBits (ps.map TParam.means) := by
  intro p hp ht
  obtain ⟨x, -, rfl⟩ := List.mem_map.1 hp
  cases x <;> simp [TParam.means] at ht
  rename_i b
  cases b <;> simp [TParam.means]

theorem retrieve_means {kl : Bool} {f : KeyF} {p p' : MParam} (hv : f.mtype = .valid → f.nbits = 8)
    (hp : p.type = f.mtype) (hb : p.type = .valid → p.key = [0] ∨ p.key = [1]) (h : ReadsBack kl f p p') :
    TParam.means (retrieveParam p') = p' := by
  obtain ⟨h1, h2, h3⟩ := h
  obtain ⟨t, k, m, n⟩ := p'
  simp only at h1 h2 h3
  subst h1
  unfold retrieveParam
  cases e : f.mtype with
  | exact => rw [e] at h3; obtain ⟨-, rfl, rfl⟩ := h3; rfl
  | ternary => rw [e] at h3; obtain ⟨-, rfl, rfl⟩ := h3; rfl
  | range => rw [e] at h3; obtain ⟨-, rfl, rfl⟩ := h3; rfl
  | lpm => rw [e] at h3; obtain ⟨rfl, h3, -⟩ := h3; rfl
  | valid =>
    rw [e] at h3
    obtain ⟨h3, rfl, rfl⟩ := h3
    have hle : paramValue f p ≤ 1 := by
      unfold paramValue
      have := underMask_le f (bytesNat p.key % 2 ^ f.nbits)
      have h4 := Nat.mod_le (bytesNat p.key) (2 ^ f.nbits)
      have h5 : bytesNat p.key ≤ 1 := by
        rcases hb (hp.trans e) with hk | hk <;> rw [hk] <;> decide
      omega
    rw [hv e] at h2
    obtain ⟨x, rfl⟩ : ∃ x, k = [x] := by
      match k, h2 with
      | [x], _ => exact ⟨x, rfl⟩
    have hx : x.toNat ≤ 1 := by
      have : bytesNat [x] = x.toNat := by simp [bytesNat]
      omega
    have : x = 0 ∨ x = 1 := by
      have : x.toNat = 0 ∨ x.toNat = 1 := by omega
      rcases this with h | h
      · left; exact UInt8.toNat_inj.1 h
      · right; exact UInt8.toNat_inj.1 h
    rcases this with rfl | rfl <;> rfl

/-! ## Codes -/

theorem code_err {K : Type} {c : MT.Code} {e : AErr} (h : (c.out : AOut K) = .err e) (hc : c ≠ .unit .error) (r : Res) :
    Refused (.table e) (finish c r) := by
  cases c with
  | unit c =>
    cases c <;> simp [Code.out, MCode.out, liftOut] at h hc <;> subst h <;> exact ⟨_, rfl, rfl⟩
  | _ => simp [Code.out] at h; subst h; exact ⟨_, rfl, rfl⟩

theorem code_done {K : Type} {c : MT.Code} (h : (c.out : AOut K) = .done) (r : Res) : finish c r = r := by
  cases c with
  | unit c => cases c <;> simp [Code.out, MCode.out, liftOut] at h ⊢; rfl
  | _ => simp [Code.out] at h

theorem code_handle {K : Type} {c : MT.Code} {h : Nat} : (c.out : AOut K) ≠ .handle h := by
  cases c with
  | unit c => cases c <;> simp [Code.out, MCode.out, liftOut]
  | _ => simp [Code.out]

theorem code_refuse {K : Type} {c : MCode} {e : AErr} (h : (Code.out (.unit c) : AOut K) = .err e) (hc : c ≠ .error) :
    ∃ x, unitExc c = some x ∧ Exc.why x = some (.table e) := by
  cases c <;> simp [Code.out, MCode.out, liftOut] at h hc <;> subst h <;> exact ⟨_, rfl, rfl⟩

theorem addEntry_ne_error {K V : Type} {L : LookupStr K} {mu : MUnit L V R} {k v now r}
    (h : mu.addEntry k v now = some r) : r.1.1 ≠ .error := by
  unfold MUnit.addEntry at h
  split at h
  · cases h; simp
  split at h
  · cases h; simp
  obtain ⟨ex, -, h⟩ := Option.bind_eq_some_iff.1 h
  split at h
  · cases h; simp
  split at h
  · cases h; simp
  obtain ⟨x, -, h⟩ := Option.bind_eq_some_iff.1 h
  simp only at h
  split at h
  · obtain ⟨y, -, h⟩ := Option.bind_eq_some_iff.1 h
    split at h
    · cases h; simp
    · cases h
  · cases h

theorem tabAdd_ne_error {K : Type} {L : LookupStr K} {t : Tab L R} {k f data now r}
    (h : t.addEntry k f data now = some r) : r.1.1 ≠ .unit .error := by
  unfold Tab.addEntry at h
  split at h
  · cases h; simp
  split at h
  · cases h; simp
  obtain ⟨n, -, h⟩ := Option.bind_eq_some_iff.1 h
  obtain ⟨x, e, h⟩ := Option.bind_eq_some_iff.1 h
  cases h
  have := addEntry_ne_error e
  simpa using this

theorem getEntry_ne_error {K V : Type} {L : LookupStr K} {mu : MUnit L V R} {h r}
    (e : mu.getEntry h = some r) : r.1 ≠ .error := by
  unfold MUnit.getEntry at e
  obtain ⟨c, e1, e⟩ := Option.bind_eq_some_iff.1 e
  split at e
  · cases e
    unfold MUnit.checkHandle at e1
    obtain ⟨v, -, e1⟩ := Option.bind_eq_some_iff.1 e1
    split at e1
    · cases e1; simp
    split at e1
    · split at e1 <;> cases e1 <;> simp
    · cases e1
  · obtain ⟨y, -, e⟩ := Option.bind_eq_some_iff.1 e
    cases e; simp

theorem tabGet_ne_error {K : Type} {L : LookupStr K} {t : Tab L R} {h r}
    (e : t.getEntry h = some r) : r.1 ≠ .error := by
  unfold Tab.getEntry at e
  obtain ⟨x, e1, e⟩ := Option.bind_eq_some_iff.1 e
  have := getEntry_ne_error e1
  cases e
  exact this

theorem retrieve_ne_error {K V : Type} {L : LookupStr K} {mu : MUnit L V R} {k r}
    (e : mu.retrieveHandle k = some r) : r.1 ≠ .error := by
  unfold MUnit.retrieveHandle at e
  split at e
  · cases e; simp
  · obtain ⟨x, -, e⟩ := Option.bind_eq_some_iff.1 e
    grind

theorem tabByKey_ne_error {K : Type} {L : LookupStr K} {t : Tab L R} {k r}
    (e : t.getEntryFromKey k = some r) : r.1 ≠ .error := by
  unfold Tab.getEntryFromKey at e
  obtain ⟨x, e1, e⟩ := Option.bind_eq_some_iff.1 e
  have := retrieve_ne_error e1
  simp only at e
  split at e
  · cases e; exact this
  · obtain ⟨y, e2, e⟩ := Option.bind_eq_some_iff.1 e
    have := tabGet_ne_error e2
    cases e; exact this

/-! ## The relation -/

/-- Entries of the map and of the specification. -/
def EntryRel (d : Decl) (kb : KeyB) :
    Option ((d.kind.tk kb.nbytesKey).K × (ActFn × List Int)) → Option SEntry → Prop
  | none, none => True
  | some (key, f, data), some e => e.fn = f ∧ e.data = data ∧ ParamsOk d.fs e.key.1 ∧ VBits e.key.1 ∧
      buildKey d.kind kb kb.nbytesKey e.key.1 e.key.2 = some (some key) ∧
      f ∈ d.names.map Prod.snd ∧ ∀ v ∈ data, 0 ≤ v
  | _, _ => False

/-- States of the table and of the specification. -/
structure Sim (d : Decl) (kb : KeyB) (s : AState (d.kind.tk kb.nbytesKey).K) (S : STab) : Prop where
  D : s.D = S.D
  DOk : ∀ f data, S.D = some (f, data) → f ∈ d.names.map Prod.snd ∧ ∀ v ∈ data, 0 ≤ v
  T : ∀ h, EntryRel d kb (s.T h) (S.T h)

variable {d : Decl} {kb : KeyB} {s : AState (d.kind.tk kb.nbytesKey).K} {S : STab}

theorem Sim.free (h : Sim d kb s S) {x : Nat} : s.T x = none ↔ S.T x = none := by
  have := h.T x
  cases e : s.T x <;> cases e' : S.T x <;> rw [e, e'] at this <;> simp_all [EntryRel]

theorem Sim.isSome (h : Sim d kb s S) (x : Nat) : (s.T x).isSome = (S.T x).isSome := by
  have := h.T x
  cases e : s.T x <;> cases e' : S.T x <;> rw [e, e'] at this <;> simp_all [EntryRel]

theorem Sim.toMap (h : Sim d kb s S) {x : Nat} {e : SEntry} (he : S.T x = some e) :
    ∃ key, s.T x = some (key, e.fn, e.data) ∧ EntryRel d kb (some (key, e.fn, e.data)) (some e) := by
  have h1 := h.T x
  cases e' : s.T x with
  | none => rw [he, e'] at h1; exact h1.elim
  | some y =>
    obtain ⟨key, f, data⟩ := y
    rw [he, e'] at h1
    obtain ⟨rfl, rfl, h2⟩ := h1
    exact ⟨key, rfl, rfl, rfl, h2⟩

theorem Sim.toSpec (h : Sim d kb s S) {x : Nat} {y} (he : s.T x = some y) :
    ∃ e, S.T x = some e ∧ EntryRel d kb (some y) (some e) := by
  have h1 := h.T x
  cases e' : S.T x with
  | none => rw [he, e'] at h1; obtain ⟨_, _, _⟩ := y; exact h1.elim
  | some e => rw [he, e'] at h1; exact ⟨e, rfl, h1⟩

theorem Sim.live (h : Sim d kb s S) {l : List Nat} : Live s.T l ↔ InUse S l := by
  unfold Live InUse
  simp [h.isSome]

theorem Sim.hasSame (k : KeyLaws d kb) (h : Sim d kb s S) {a : List MParam × Int} {ka}
    (ha : ParamsOk d.fs a.1) (hb : buildKey d.kind kb kb.nbytesKey a.1 a.2 = some (some ka)) :
    HasSame (d.kind.tk kb.nbytesKey).spec s.T ka ↔ ∃ x e, S.T x = some e ∧ SameKey d e.key a := by
  constructor
  · rintro ⟨x, k', v', ht, hs⟩
    obtain ⟨e, he, h1, h2, h3, h4, h5, h6⟩ := h.toSpec ht
    exact ⟨x, e, he, (k.same _ _ _ _ h3 ha h5 hb).1 hs⟩
  · rintro ⟨x, e, he, hs⟩
    obtain ⟨key, ht, h1, h2, h3, h4, h5, h6⟩ := h.toMap he
    exact ⟨x, key, _, ht, (k.same _ _ _ _ h3 ha h5 hb).2 hs⟩

/-- The table represents the state of the specification. -/
def TRel (d : Decl) (t : DTab R) (S : STab) : Prop :=
  ∃ (kb : KeyB) (tab : Tab (d.kind.tk kb.nbytesKey).str R) (P : TableDecl (d.kind.tk kb.nbytesKey).K)
    (s : AState (d.kind.tk kb.nbytesKey).K) (E : _),
    t = ⟨d.kind, kb, d.names, tab⟩ ∧ KeyLaws d kb ∧
    (P.actions = d.prog.actions ∧ P.hitMiss = d.prog.hitMiss ∧ P.base = d.prog.base ∧ P.dflt = d.prog.dflt ∧
      P.entries.isSome = d.prog.entries.isSome) ∧
    Rep (d.kind.tk kb.nbytesKey).laws P P.entries.isSome tab s E ∧ tab.mu.size = d.size ∧
    tab.mu.sizeKey = kb.nbytesKey ∧ Sim d kb s S

/-! ## Presenting entries -/

theorem mapM_getString : ∀ data : List Int, (∀ v ∈ data, 0 ≤ v) →
    ∃ bs, data.mapM PiEntry.getString = some bs ∧ nums bs = data
  | [], _ => ⟨[], rfl, rfl⟩
  | v :: data, h => by
    obtain ⟨bs, e, hb⟩ := mapM_getString data (fun x hx => h x (by simp [hx]))
    obtain ⟨n, rfl⟩ := Int.eq_ofNat_of_zero_le (h v (by simp))
    obtain ⟨b, e1, h1, -⟩ := PiEntry.getString_nat n
    refine ⟨b :: bs, ?_, ?_⟩
    · simp [List.mapM_cons, e, e1]
    · rw [← hb]; simp [nums, h1]

theorem actionEntry_ok {t : DTab R} (ht : t.names = d.names) {f : ActFn} {data : List Int}
    (hf : f ∈ d.names.map Prod.snd) (hd : ∀ v ∈ data, 0 ≤ v) :
    ∃ a, t.actionEntry f data = some a ∧ ShowsAct d f data (some a) := by
  obtain ⟨bs, e, hb⟩ := mapM_getString data hd
  obtain ⟨x, hx, rfl⟩ := List.mem_map.1 hf
  have : ((d.names.find? fun y => y.2 = x.2)).isSome = true := by
    rw [List.find?_isSome]; exact ⟨x, hx, by simp⟩
  obtain ⟨y, hy⟩ := Option.isSome_iff_exists.1 this
  have h1 := List.find?_some hy
  have h2 := List.mem_of_find?_eq_some hy
  refine ⟨(y.1, bs), ?_, y.1, bs, rfl, ?_, hb⟩
  · simp [DTab.actionEntry, DTab.nameOf, ht, hy, e]
  · have : y.2 = x.2 := by simpa using h1
    rw [← this]; exact h2

theorem showEntry_ok (w : Decl.WF d) (k : KeyLaws d kb) (tab : Tab (d.kind.tk kb.nbytesKey).str R) {key f data e}
    (h : EntryRel d kb (some (key, f, data)) (some e)) (x : Nat) :
    ∃ b, DTab.showEntry (⟨d.kind, kb, d.names, tab⟩ : DTab R) x key (some f) data = some b ∧ b.handle = x ∧
      Shows d e b := by
  obtain ⟨rfl, rfl, h3, h4, h5, h6, h7⟩ := h
  obtain ⟨key', e1, -, ps', e2, hb⟩ := k.good _ e.key.2 h3
  rw [h5] at e1
  cases e1
  obtain ⟨a, e3, ha⟩ := actionEntry_ok (t := (⟨d.kind, kb, d.names, tab⟩ : DTab R)) (d := d) rfl h6 h7
  refine ⟨⟨ps'.map retrieveParam, x, if Kind.hasPrio d.kind then e.key.2 else -1, some a⟩, ?_, rfl, ?_, ?_, rfl, ha⟩
  · simp [DTab.showEntry, e2, e3]
  · simpa using hb.1
  · intro i f p p' hf hp hp'
    simp only [List.getElem?_map, Option.map_eq_some_iff] at hp'
    obtain ⟨q, hq, rfl⟩ := hp'
    have hrb := hb.2 i f p q hf hp hq
    have hf' : f ∈ d.fs := List.mem_of_getElem? hf
    rw [retrieve_means (w.fields f hf').2.2 (h3.2 i f p hf hp).1 (h4 p (List.mem_of_getElem? hp)) hrb]
    exact hrb

/-! ## One request -/

/-- The step of a request. -/
def Stepped (d : Decl) (S : STab) (c : Call) (x : Option (Res × DTab R)) : Prop :=
  ∃ r t' S', x = some (r, t') ∧ TRel d t' S' ∧ Step d S c S' r

/-- What is known about a table. -/
structure Known (d : Decl) (kb : KeyB) (tab : Tab (d.kind.tk kb.nbytesKey).str R)
    (P : TableDecl (d.kind.tk kb.nbytesKey).K) (s : AState (d.kind.tk kb.nbytesKey).K)
    (E : Nat → Option ((d.kind.tk kb.nbytesKey).K × ActEntry)) (S : STab) : Prop where
  keys : KeyLaws d kb
  actions : P.actions = d.prog.actions
  hitMiss : P.hitMiss = d.prog.hitMiss
  base : P.base = d.prog.base
  dflt : P.dflt = d.prog.dflt
  entries : P.entries.isSome = d.prog.entries.isSome
  rep : Rep (d.kind.tk kb.nbytesKey).laws P P.entries.isSome tab s E
  size : tab.mu.size = d.size
  sizeKey : tab.mu.sizeKey = kb.nbytesKey
  sim : Sim d kb s S

variable {tab : Tab (d.kind.tk kb.nbytesKey).str R} {P : TableDecl (d.kind.tk kb.nbytesKey).K}
  {E : Nat → Option ((d.kind.tk kb.nbytesKey).K × ActEntry)}

theorem Known.rel (h : Known d kb tab P s E S) : TRel d (⟨d.kind, kb, d.names, tab⟩ : DTab R) S :=
  ⟨kb, tab, P, s, E, rfl, h.keys, ⟨h.actions, h.hitMiss, h.base, h.dflt, h.entries⟩, h.rep, h.size, h.sizeKey, h.sim⟩

theorem TRel.known {t : DTab R} (h : TRel d t S) : ∃ (kb : KeyB) (tab : Tab (d.kind.tk kb.nbytesKey).str R)
    (P : TableDecl (d.kind.tk kb.nbytesKey).K) (s : AState (d.kind.tk kb.nbytesKey).K)
    (E : Nat → Option ((d.kind.tk kb.nbytesKey).K × ActEntry)),
    t = ⟨d.kind, kb, d.names, tab⟩ ∧ Known d kb tab P s E S := by
  obtain ⟨kb, tab, P, s, E, rfl, h1, ⟨h2, h3, h4, h5, h6⟩, h7, h8, h9, h10⟩ := h
  exact ⟨kb, tab, P, s, E, rfl, h1, h2, h3, h4, h5, h6, h7, h8, h9, h10⟩

/-- A call of the table below. -/
theorem Known.exec (h : Known d kb tab P s E S) (op : AOp (d.kind.tk kb.nbytesKey).K)
    (hv : op.Valid P (d.kind.tk kb.nbytesKey).spec) :
    ∃ out tab' s', tab.exec op = some (out, tab') ∧
      AStep P (d.kind.tk kb.nbytesKey).spec d.size (decide (d.fs = [])) s op s' out ∧
      ∀ S', Sim d kb s' S' → TRel d (⟨d.kind, kb, d.names, tab'⟩ : DTab R) S' := by
  obtain ⟨out, t', s', E', e, hr, h1, h2, st⟩ := h.rep.exec op hv
  refine ⟨out, t', s', e, ?_, ?_⟩
  · rw [h.size, h.sizeKey] at st
    simpa [h.keys.empty] using st
  · intro S' hs
    exact ⟨kb, t', P, s', E', rfl, h.keys, ⟨h.actions, h.hitMiss, h.base, h.dflt, h.entries⟩, hr, h1.trans h.size,
      h2.trans h.sizeKey, hs⟩

theorem Known.goto (h : Known d kb tab P s E S) (b : Bool) (x) : P.goto b x = d.prog.goto b x := by
  unfold TableDecl.goto TableDecl.after
  rw [h.actions, h.hitMiss, h.base]

theorem Known.default0 (h : Known d kb tab P s E S) : P.default0 = d.prog.default0 := by
  unfold TableDecl.default0
  rw [h.dflt]

theorem action_mem (w : Decl.WF d) {t : DTab R} (ht : t.names = d.names) (a : String) :
    (t.action a = none ∧ ∀ f, (a, f) ∉ d.names) ∨
    ∃ f, t.action a = some f ∧ (a, f) ∈ d.names ∧ f ∈ d.prog.actions.map Prod.fst ∧ f ∈ d.names.map Prod.snd := by
  unfold DTab.action
  rw [ht]
  cases e : d.names.find? fun x => x.1 = a with
  | none =>
    left
    refine ⟨rfl, ?_⟩
    intro f hf
    rw [List.find?_eq_none] at e
    exact e _ hf (by simp)
  | some x =>
    right
    have h1 := List.find?_some e
    have h2 := List.mem_of_find?_eq_some e
    have h3 : x.1 = a := by simpa using h1
    refine ⟨x.2, rfl, by rw [← h3]; exact h2, ?_, List.mem_map.2 ⟨x, h2, rfl⟩⟩
    rw [← w.acts]; exact List.mem_map.2 ⟨x, h2, rfl⟩

/-- Requests that name an action. -/
theorem Known.withAct (w : Decl.WF d) (h : Known d kb tab P s E S) (a : String)
    (k : ActFn → Option (Res × DTab R)) (Q : STab → Res → ActFn → Prop)
    (hk : ∀ f, (a, f) ∈ d.names → f ∈ d.prog.actions.map Prod.fst → f ∈ d.names.map Prod.snd →
      ∃ r t' S', k f = some (r, t') ∧ TRel d t' S' ∧ Q S' r f) :
    ∃ r t' S', (⟨d.kind, kb, d.names, tab⟩ : DTab R).withAct a k = some (r, t') ∧ TRel d t' S' ∧
      WithAct d a S S' r (Q S' r) := by
  unfold DTab.withAct
  rcases action_mem w (t := (⟨d.kind, kb, d.names, tab⟩ : DTab R)) rfl a with ⟨e, hn⟩ | ⟨f, e, h1, h2, h3⟩
  · rw [e]
    exact ⟨_, _, S, rfl, h.rel, .inr ⟨hn, rfl, _, rfl, rfl⟩⟩
  · rw [e]
    obtain ⟨r, t', S', e', hr, hq⟩ := hk f h1 h2 h3
    exact ⟨r, t', S', e', hr, .inl ⟨f, h1, hq⟩⟩

theorem Sim.refl_of_eq (h : Sim d kb s S) {s'} (e : s' = s) : Sim d kb s' S := e ▸ h

/-- The code of a successful or refused call. -/
theorem finish_of {K : Type} {c : MT.Code} {o : AOut K} (hc : c ≠ .unit .error)
    (ho : (c.out : AOut K) = o) (r : Res) : (o = .done ∧ finish c r = r) ∨ ∃ e, o = .err e ∧ Refused (.table e) (finish c r) := by
  cases o with
  | done => exact .inl ⟨rfl, code_done ho r⟩
  | err e => exact .inr ⟨e, rfl, code_err ho hc r⟩
  | _ =>
    exfalso
    cases c with
    | unit c => cases c <;> simp [Code.out, MCode.out, liftOut] at ho
    | _ => simp [Code.out] at ho

theorem reqKey_eq (ps : List TParam) (prio : Int) :
    (⟨d.kind, kb, d.names, tab⟩ : DTab R).reqKey ps prio = buildKey d.kind kb kb.nbytesKey (ps.map TParam.means) prio := by
  unfold DTab.reqKey
  rw [map_buildParam]

theorem step_add (w : Decl.WF d) (h : Known d kb tab P s E S) (ps a data prio now) :
    Stepped d S (.add ps a data prio now) ((⟨d.kind, kb, d.names, tab⟩ : DTab R).exec (.add ps a data prio now)) := by
  refine h.withAct w a _ (fun S' r f => if d.prog.entries.isSome then S' = S ∧ Refused (.table .constEntries) r
    else if data.length ≠ f.nparams then S' = S ∧ Refused (.table .badData) r
    else AddStep d S ⟨(ps.map TParam.means, prio), f, nums data⟩ S' r) ?_
  intro f hf1 hf2 hf3
  -- the key
  obtain ⟨ko, ek, hko⟩ : ∃ ko, buildKey d.kind kb kb.nbytesKey (ps.map TParam.means) prio = some ko ∧
      ((ko = none ∧ ¬ ParamsOk d.fs (ps.map TParam.means)) ∨
       ∃ key, ko = some key ∧ ParamsOk d.fs (ps.map TParam.means) ∧ (d.kind.tk kb.nbytesKey).spec.okK key) := by
    by_cases hp : ParamsOk d.fs (ps.map TParam.means)
    · obtain ⟨key, e1, h1, -⟩ := h.keys.good _ prio hp
      exact ⟨_, e1, .inr ⟨key, rfl, hp, h1⟩⟩
    · exact ⟨_, h.keys.bad _ prio hp, .inl ⟨rfl, hp⟩⟩
  obtain ⟨out, tab', s', e, st, hr⟩ := h.exec (.add ko f (nums data) now) (by
    refine ⟨?_, by rw [h.actions]; exact hf2⟩
    intro k' hk'
    rcases hko with ⟨rfl, -⟩ | ⟨key, rfl, -, h1⟩
    · simp at hk'
    · cases hk'; exact h1)
  obtain ⟨⟨⟨c, hd⟩, tab''⟩, e1, e2⟩ := Option.map_eq_some_iff.1 e
  simp only [Prod.mk.injEq] at e2
  obtain ⟨e2, rfl⟩ := e2
  have hne := tabAdd_ne_error e1
  simp only at hne
  have hex : (⟨d.kind, kb, d.names, tab⟩ : DTab R).add ps f data prio now =
      some (finish c (.handle hd), ⟨d.kind, kb, d.names, tab''⟩) := by
    simp only [DTab.add, Option.bind_eq_bind, reqKey_eq, ek, Option.bind_some, actionData_nums]
    rw [e1]; rfl
  have herr : ∀ x, out = .err x → Refused (.table x) (finish c (.handle hd)) := by
    intro x hx
    rw [hx] at e2
    split at e2
    · simp at e2
    · exact code_err e2 hne _
  rw [hex]
  simp only [AStep, h.entries, nums_length] at st
  by_cases hi : d.prog.entries.isSome = true
  · rw [if_pos hi] at st
    refine ⟨_, _, S, rfl, hr S (h.sim.refl_of_eq st.1), ?_⟩
    rw [if_pos hi]
    exact ⟨rfl, herr _ st.2⟩
  rw [if_neg hi] at st
  by_cases hl : data.length ≠ f.nparams
  · rw [if_pos hl] at st
    refine ⟨_, _, S, rfl, hr S (h.sim.refl_of_eq st.1), ?_⟩
    rw [if_neg hi, if_pos hl]
    exact ⟨rfl, herr _ st.2⟩
  rw [if_neg hl] at st
  obtain ⟨o, st, hD, ho⟩ := st
  have stay : s'.T = s.T → Sim d kb s' S := by
    intro ht
    refine ⟨hD.trans h.sim.D, h.sim.DOk, ?_⟩
    rw [ht]; exact h.sim.T
  simp only [if_neg hi, if_neg hl]
  by_cases hfs : d.fs = []
  · rw [hfs] at st
    simp only [TStep, decide_true] at st
    refine ⟨_, _, S, rfl, hr S (stay st.2), .inl ⟨hfs, rfl, herr _ ?_⟩⟩
    rw [ho, st.1]; rfl
  simp only [TStep, decide_eq_false hfs] at st
  rcases hko with ⟨rfl, hp⟩ | ⟨key, rfl, hp, hok⟩
  · refine ⟨_, _, S, rfl, hr S (stay st.2), .inr (.inl ⟨hfs, hp, rfl, herr _ ?_⟩)⟩
    rw [ho, st.1]; rfl
  have hsame := h.sim.hasSame h.keys (a := (ps.map TParam.means, prio)) hp ek
  rcases st with ⟨hs, ho', ht⟩ | ⟨hs, ⟨l, hl1, hl2⟩, ho', ht⟩ | ⟨hs, ⟨l, hl1, hl2⟩, x, ho', hx, hfree, hslot, ht⟩
  · refine ⟨_, _, S, rfl, hr S (stay ht), .inr (.inr (.inl ⟨hfs, hp, hsame.1 hs, rfl, herr _ ?_⟩))⟩
    rw [ho, ho']; rfl
  · refine ⟨_, _, S, rfl, hr S (stay ht), .inr (.inr (.inr ⟨hfs, hp, ?_, l, h.sim.live.1 hl1,
      .inl ⟨hl2, rfl, herr _ ?_⟩⟩))⟩
    · intro x e' he hc; exact hs (hsame.2 ⟨x, e', he, hc⟩)
    · rw [ho, ho']; rfl
  · have hout : out = .handle x := by rw [ho, ho']; rfl
    rw [hout] at e2
    have hc : c = .unit .success ∧ hd = x := by
      split at e2
      · rename_i hcs; exact ⟨hcs, by simpa using e2⟩
      · exact absurd e2 code_handle
    refine ⟨_, _, { S with T := fun h' => if h' = x then some ⟨(ps.map TParam.means, prio), f, nums data⟩ else S.T h' },
      rfl, hr _ ⟨hD.trans h.sim.D, h.sim.DOk, ?_⟩, .inr (.inr (.inr ⟨hfs, hp, ?_, l, h.sim.live.1 hl1,
      .inr ⟨hl2, x, ?_, hx, h.sim.free.1 hfree, ?_, rfl⟩⟩))⟩
    · intro y
      rw [ht]
      by_cases hy : y = x
      · simp only [if_pos hy]
        exact ⟨rfl, rfl, hp, vbits_means ps, ek, hf3, nums_nonneg data⟩
      · simp only [if_neg hy]; exact h.sim.T y
    · intro x e' he hc; exact hs (hsame.2 ⟨x, e', he, hc⟩)
    · rw [hc.1, hc.2]; rfl
    · intro h' hh; exact hslot h' ((hl1.2 h').1 hh)

theorem code_err' {K : Type} {c : MT.Code} {e : AErr} (h : (c.out : AOut K) = .err e) (he : e ≠ .table .badKey)
    (r : Res) : Refused (.table e) (finish c r) := by
  refine code_err h ?_ r
  rintro rfl
  simp [Code.out, MCode.out, liftOut] at h
  exact he h.symm

theorem step_delete (h : Known d kb tab P s E S) (x : Nat) :
    Stepped d S (.delete x) ((⟨d.kind, kb, d.names, tab⟩ : DTab R).exec (.delete x)) := by
  obtain ⟨out, tab', s', e, st, hr⟩ := h.exec (.delete x) trivial
  obtain ⟨⟨c, tab''⟩, e1, e2⟩ := Option.map_eq_some_iff.1 e
  simp only [Prod.mk.injEq] at e2
  obtain ⟨rfl, rfl⟩ := e2
  have hex : (⟨d.kind, kb, d.names, tab⟩ : DTab R).exec (.delete x) =
      some (finish c .done, ⟨d.kind, kb, d.names, tab''⟩) := by
    simp only [DTab.exec]
    rw [e1]; rfl
  rw [hex]
  simp only [AStep, h.entries] at st
  by_cases hi : d.prog.entries.isSome = true
  · rw [if_pos hi] at st
    refine ⟨_, _, S, rfl, hr S (h.sim.refl_of_eq st.1), ?_⟩
    simp only [Step, if_pos hi]
    exact ⟨trivial, code_err' st.2 (by simp) _⟩
  rw [if_neg hi] at st
  obtain ⟨o, st, hD, ho⟩ := st
  rcases st with ⟨hs, rfl, ht⟩ | ⟨hs, rfl, ht⟩
  · refine ⟨_, _, { S with T := fun h' => if h' = x then none else S.T h' }, rfl,
      hr _ ⟨hD.trans h.sim.D, h.sim.DOk, ?_⟩, ?_⟩
    · intro y
      rw [ht]
      by_cases hy : y = x
      · simp [hy, EntryRel]
      · simp only [if_neg hy]; exact h.sim.T y
    · simp only [Step, if_neg hi]
      rw [h.sim.isSome] at hs
      obtain ⟨e', he'⟩ := Option.isSome_iff_exists.1 hs
      rw [he']
      exact ⟨trivial, code_done ho _⟩
  · refine ⟨_, _, S, rfl, hr S ⟨hD.trans h.sim.D, h.sim.DOk, by rw [ht]; exact h.sim.T⟩, ?_⟩
    simp only [Step, if_neg hi]
    rw [h.sim.free.1 hs]
    exact ⟨trivial, code_err' ho (by simp) _⟩

theorem step_modify (w : Decl.WF d) (h : Known d kb tab P s E S) (x : Nat) (a data) :
    Stepped d S (.modify x a data) ((⟨d.kind, kb, d.names, tab⟩ : DTab R).exec (.modify x a data)) := by
  refine h.withAct w a _ (fun S' r f => if d.prog.entries.isSome then S' = S ∧ Refused (.table .constEntries) r
    else if data.length ≠ f.nparams then S' = S ∧ Refused (.table .badData) r
    else match S.T x with
      | some e => S' = { S with T := fun h' => if h' = x then some ⟨e.key, f, nums data⟩ else S.T h' } ∧ r = .done
      | none => S' = S ∧ Refused (.table (.table .stale)) r) ?_
  intro f hf1 hf2 hf3
  obtain ⟨out, tab', s', e, st, hr⟩ := h.exec (.modify x f (nums data)) (by
    show f ∈ _; rw [h.actions]; exact hf2)
  obtain ⟨⟨c, tab''⟩, e1, e2⟩ := Option.map_eq_some_iff.1 e
  simp only [Prod.mk.injEq] at e2
  obtain ⟨rfl, rfl⟩ := e2
  simp only [actionData_nums]
  rw [e1]
  simp only [Option.map_some]
  simp only [AStep, h.entries, nums_length] at st
  by_cases hi : d.prog.entries.isSome = true
  · rw [if_pos hi] at st
    refine ⟨_, _, S, rfl, hr S (h.sim.refl_of_eq st.1), ?_⟩
    simp only [if_pos hi]
    exact ⟨trivial, code_err' st.2 (by simp) _⟩
  rw [if_neg hi] at st
  by_cases hl : data.length ≠ f.nparams
  · rw [if_pos hl] at st
    refine ⟨_, _, S, rfl, hr S (h.sim.refl_of_eq st.1), ?_⟩
    rw [if_neg hi, if_pos hl]
    exact ⟨rfl, code_err' st.2 (by simp) _⟩
  rw [if_neg hl] at st
  obtain ⟨o, st, hD, ho⟩ := st
  simp only [if_neg hi, if_neg hl]
  rcases st with ⟨k, v', hk, rfl, ht⟩ | ⟨hs, rfl, ht⟩
  · obtain ⟨e', he', h1, h2, h3, h4, h5, h6⟩ := h.sim.toSpec hk
    refine ⟨_, _, { S with T := fun h' => if h' = x then some ⟨e'.key, f, nums data⟩ else S.T h' }, rfl,
      hr _ ⟨hD.trans h.sim.D, h.sim.DOk, ?_⟩, ?_⟩
    · intro y
      rw [ht]
      by_cases hy : y = x
      · simp only [if_pos hy]
        exact ⟨rfl, rfl, h3, h4, h5, hf3, nums_nonneg data⟩
      · simp only [if_neg hy]; exact h.sim.T y
    · rw [he']
      exact ⟨rfl, code_done ho _⟩
  · refine ⟨_, _, S, rfl, hr S ⟨hD.trans h.sim.D, h.sim.DOk, by rw [ht]; exact h.sim.T⟩, ?_⟩
    rw [h.sim.free.1 hs]
    exact ⟨rfl, code_err' ho (by simp) _⟩

theorem step_setDefault (w : Decl.WF d) (h : Known d kb tab P s E S) (a data) :
    Stepped d S (.setDefault a data) ((⟨d.kind, kb, d.names, tab⟩ : DTab R).exec (.setDefault a data)) := by
  refine h.withAct w a _ (fun S' r f =>
    if ∃ x, d.prog.dflt = some x ∧ x.constEntry = true then S' = S ∧ Refused (.table .constEntry) r
    else if ∃ x, d.prog.dflt = some x ∧ x.constAction = true ∧ x.fn ≠ f then
      S' = S ∧ Refused (.table .constAction) r
    else if data.length ≠ f.nparams then S' = S ∧ Refused (.table .badData) r
    else S' = { S with D := some (f, nums data) } ∧ r = .done) ?_
  intro f hf1 hf2 hf3
  obtain ⟨out, tab', s', e, st, hr⟩ := h.exec (.setDefault f (nums data)) (by
    show f ∈ _; rw [h.actions]; exact hf2)
  obtain ⟨⟨c, tab''⟩, e1, e2⟩ := Option.map_eq_some_iff.1 e
  simp only [Prod.mk.injEq] at e2
  obtain ⟨rfl, rfl⟩ := e2
  simp only [actionData_nums]
  rw [e1]
  simp only [Option.map_some]
  simp only [AStep, h.dflt, nums_length] at st
  by_cases h1 : ∃ x, d.prog.dflt = some x ∧ x.constEntry = true
  · rw [if_pos h1] at st
    refine ⟨_, _, S, rfl, hr S (h.sim.refl_of_eq st.1), ?_⟩
    rw [if_pos h1]
    exact ⟨rfl, code_err' st.2 (by simp) _⟩
  rw [if_neg h1] at st
  by_cases h2 : ∃ x, d.prog.dflt = some x ∧ x.constAction = true ∧ x.fn ≠ f
  · rw [if_pos h2] at st
    refine ⟨_, _, S, rfl, hr S (h.sim.refl_of_eq st.1), ?_⟩
    rw [if_neg h1, if_pos h2]
    exact ⟨rfl, code_err' st.2 (by simp) _⟩
  rw [if_neg h2] at st
  by_cases hl : data.length ≠ f.nparams
  · rw [if_pos hl] at st
    refine ⟨_, _, S, rfl, hr S (h.sim.refl_of_eq st.1), ?_⟩
    rw [if_neg h1, if_neg h2, if_pos hl]
    exact ⟨rfl, code_err' st.2 (by simp) _⟩
  rw [if_neg hl] at st
  refine ⟨_, _, { S with D := some (f, nums data) }, rfl, hr _ ?_, ?_⟩
  · rw [st.1]
    refine ⟨rfl, ?_, h.sim.T⟩
    intro f' data' he
    cases he
    exact ⟨hf3, nums_nonneg data⟩
  · rw [if_neg h1, if_neg h2, if_neg hl]
    exact ⟨rfl, code_done st.2 _⟩

theorem default0_ok (w : Decl.WF d) : ∀ f data, d.prog.default0 = some (f, data) →
    f ∈ d.names.map Prod.snd ∧ ∀ v ∈ data, 0 ≤ v := by
  intro f data e
  simp only [TableDecl.default0, Option.map_eq_some_iff] at e
  obtain ⟨x, e, e'⟩ := e
  cases e'
  obtain ⟨h1, -, h2⟩ := w.dflt x e
  exact ⟨by rw [w.acts]; exact h1, h2⟩

theorem step_resetDefault (w : Decl.WF d) (h : Known d kb tab P s E S) :
    Stepped d S .resetDefault ((⟨d.kind, kb, d.names, tab⟩ : DTab R).exec .resetDefault) := by
  obtain ⟨out, tab', s', e, st, hr⟩ := h.exec .resetDefault trivial
  simp only [Tab.exec, Option.some.injEq, Prod.mk.injEq] at e
  obtain ⟨rfl, rfl⟩ := e
  refine ⟨_, _, { S with D := d.prog.default0 }, rfl, hr _ ?_, rfl, rfl⟩
  rw [st.1]
  exact ⟨h.default0, default0_ok w, h.sim.T⟩

theorem step_clear (w : Decl.WF d) (h : Known d kb tab P s E S) (c : Bool) :
    Stepped d S (.clear c) ((⟨d.kind, kb, d.names, tab⟩ : DTab R).exec (.clear c)) := by
  obtain ⟨out, tab', s', e, st, hr⟩ := h.exec (.clear c) trivial
  simp only [Tab.exec, Option.some.injEq, Prod.mk.injEq] at e
  obtain ⟨rfl, rfl⟩ := e
  refine ⟨_, _, { T := fun _ => none, D := if c then d.prog.default0 else S.D }, rfl, hr _ ?_, rfl, rfl⟩
  rw [st.1]
  refine ⟨?_, ?_, fun _ => trivial⟩
  · rw [h.default0, h.sim.D]
  · cases c
    · exact h.sim.DOk
    · exact default0_ok w

theorem step_count (h : Known d kb tab P s E S) :
    Stepped d S .count ((⟨d.kind, kb, d.names, tab⟩ : DTab R).exec .count) := by
  obtain ⟨out, tab', s', e, ⟨st, l, hl, ho⟩, hr⟩ := h.exec .count trivial
  simp only [Tab.exec, Option.some.injEq, Prod.mk.injEq] at e
  obtain ⟨rfl, rfl⟩ := e
  refine ⟨_, _, S, rfl, h.rel, rfl, l, h.sim.live.1 hl, ?_⟩
  simp only [AOut.num.injEq] at ho
  rw [← ho]

theorem step_getDefault (h : Known d kb tab P s E S) :
    Stepped d S .getDefault ((⟨d.kind, kb, d.names, tab⟩ : DTab R).exec .getDefault) := by
  obtain ⟨out, tab', s', e, ⟨st, ho⟩, hr⟩ := h.exec .getDefault trivial
  simp only [Tab.exec, Option.some.injEq, Prod.mk.injEq] at e
  obtain ⟨e, rfl⟩ := e
  rw [h.sim.D] at ho
  cases hD : S.D with
  | none =>
    rw [hD] at ho
    have : tab.getDefault = none := by
      cases hg : tab.getDefault with
      | none => rfl
      | some x => rw [hg] at e; rw [ho] at e; simp at e
    refine ⟨_, _, S, by simp only [DTab.exec, DTab.getDefault]; rw [this]; rfl, h.rel, rfl, ?_⟩
    rw [hD]
  | some x =>
    obtain ⟨f, data⟩ := x
    rw [hD] at ho
    have : tab.getDefault = some (f, data) := by
      cases hg : tab.getDefault with
      | none => rw [hg] at e; rw [ho] at e; simp [Code.out] at e
      | some x => rw [hg] at e; rw [ho] at e; simp only [AOut.default.injEq] at e; rw [← e.1, ← e.2]
    obtain ⟨h1, h2⟩ := h.sim.DOk _ _ hD
    obtain ⟨a, e3, ha⟩ := actionEntry_ok (t := (⟨d.kind, kb, d.names, tab⟩ : DTab R)) (d := d) rfl h1 h2
    refine ⟨.action (some a), _, S, by simp only [DTab.exec, DTab.getDefault]; rw [this]; simp only [e3]; rfl, h.rel, rfl, ?_⟩
    rw [hD]
    exact ⟨_, rfl, ha⟩

theorem step_get (w : Decl.WF d) (h : Known d kb tab P s E S) (x : Nat) :
    Stepped d S (.get x) ((⟨d.kind, kb, d.names, tab⟩ : DTab R).exec (.get x)) := by
  obtain ⟨out, tab', s', e, ⟨st, ho⟩, hr⟩ := h.exec (.get x) trivial
  obtain ⟨o', e1, e2⟩ := Option.map_eq_some_iff.1 e
  obtain ⟨⟨c, r⟩, e3, e4⟩ := Option.bind_eq_some_iff.1 e1
  simp only [Prod.mk.injEq] at e2
  obtain ⟨rfl, rfl⟩ := e2
  cases hx : s.T x with
  | none =>
    rw [hx] at ho
    simp only at ho
    have hr' : r = none := by
      cases r with
      | none => rfl
      | some y =>
        obtain ⟨k, f, data⟩ := y
        cases f <;> simp [entryOut, ho] at e4
    subst hr'
    simp only [entryOut, Option.some.injEq] at e4
    rw [ho] at e4
    obtain ⟨z, hz, hz'⟩ := code_refuse e4 (by
      rintro rfl; simp [Code.out, MCode.out, liftOut] at e4)
    refine ⟨.exc z, _, S, ?_, h.rel, rfl, ?_⟩
    · simp only [DTab.exec, DTab.get, Option.bind_eq_bind]
      rw [e3]
      simp [DTab.replyEntry, hz]
    · rw [h.sim.free.1 hx]
      exact ⟨z, rfl, hz'⟩
  | some y =>
    obtain ⟨k, f, data⟩ := y
    rw [hx] at ho
    simp only at ho
    have hr' : r = some (k, some f, data) := by
      cases r with
      | none =>
        simp only [entryOut, Option.some.injEq] at e4
        rw [ho] at e4
        cases c <;> simp [Code.out, MCode.out, liftOut] at e4
      | some y =>
        obtain ⟨k', f', data'⟩ := y
        cases f' <;> simp [entryOut, ho] at e4
        obtain ⟨rfl, rfl, rfl⟩ := e4
        rfl
    subst hr'
    obtain ⟨e', he', hrel⟩ := h.sim.toSpec hx
    obtain ⟨b, hb, hb1, hb2⟩ := showEntry_ok w h.keys tab hrel x
    refine ⟨.entry b, _, S, ?_, h.rel, rfl, ?_⟩
    · simp only [DTab.exec, DTab.get, Option.bind_eq_bind]
      rw [e3]
      simp [DTab.replyEntry, hb]
    · rw [he']
      exact ⟨b, rfl, hb1, hb2⟩

theorem step_getByKey (w : Decl.WF d) (h : Known d kb tab P s E S) (ps : List TParam) (hne : ps ≠ []) (prio : Int) :
    Stepped d S (.getByKey ps prio) ((⟨d.kind, kb, d.names, tab⟩ : DTab R).exec (.getByKey ps prio)) := by
  obtain ⟨ko, ek, hko⟩ : ∃ ko, buildKey d.kind kb kb.nbytesKey (ps.map TParam.means) prio = some ko ∧
      ((ko = none ∧ ¬ ParamsOk d.fs (ps.map TParam.means)) ∨
       ∃ key, ko = some key ∧ ParamsOk d.fs (ps.map TParam.means) ∧ (d.kind.tk kb.nbytesKey).spec.okK key) := by
    by_cases hp : ParamsOk d.fs (ps.map TParam.means)
    · obtain ⟨key, e1, h1, -⟩ := h.keys.good _ prio hp
      exact ⟨_, e1, .inr ⟨key, rfl, hp, h1⟩⟩
    · exact ⟨_, h.keys.bad _ prio hp, .inl ⟨rfl, hp⟩⟩
  obtain ⟨out, tab', s', e, ⟨st, ho⟩, hr⟩ := h.exec (.getByKey ko) (by
    intro k' hk'
    rcases hko with ⟨rfl, -⟩ | ⟨key, rfl, -, h1⟩
    · simp at hk'
    · cases hk'; exact h1)
  obtain ⟨o', e1, e2⟩ := Option.map_eq_some_iff.1 e
  obtain ⟨⟨c, r⟩, e3, e4⟩ := Option.bind_eq_some_iff.1 e1
  simp only [Prod.mk.injEq] at e2
  obtain ⟨rfl, rfl⟩ := e2
  have hcne := tabByKey_ne_error e3
  simp only at hcne
  have hex : ∀ z, (⟨d.kind, kb, d.names, tab⟩ : DTab R).replyEntry (c, r) = some z →
      (⟨d.kind, kb, d.names, tab⟩ : DTab R).exec (.getByKey ps prio) = some (z, ⟨d.kind, kb, d.names, tab⟩) := by
    intro z hz
    simp only [DTab.exec, DTab.getByKey, if_neg hne, Option.bind_eq_bind, reqKey_eq, ek, Option.bind_some]
    rw [e3]
    simp only [Option.bind_some]
    rw [hz]; rfl
  rcases ho with ⟨k, x, k', f, data, rfl, hx, hs, ho⟩ | ⟨hs, ho⟩
  · obtain ⟨hkey, hp⟩ : ParamsOk d.fs (ps.map TParam.means) ∧ True := by
      rcases hko with ⟨h0, -⟩ | ⟨key, h0, h1, -⟩
      · simp at h0
      · exact ⟨h1, trivial⟩
    have hr' : r = some (x, k', some f, data) := by
      cases r with
      | none =>
        simp only [keyOut, Option.some.injEq] at e4
        rw [ho] at e4
        cases c <;> simp [Code.out, MCode.out, liftOut] at e4
      | some y =>
        obtain ⟨x', k'', f', data'⟩ := y
        cases f' <;> simp [keyOut, entryOut, ho] at e4
        obtain ⟨rfl, rfl, rfl, rfl⟩ := e4
        rfl
    subst hr'
    obtain ⟨e', he', hrel⟩ := h.sim.toSpec hx
    obtain ⟨b, hb, hb1, hb2⟩ := showEntry_ok w h.keys tab hrel x
    refine ⟨.entry b, _, S, hex _ ?_, h.rel, rfl, .inl ⟨x, e', b, hkey, he', ?_, rfl, hb1, hb2⟩⟩
    · simp only [DTab.replyEntry]
      rw [hb]; rfl
    · obtain ⟨h1, h2, h3, h4, h5, h6⟩ := hrel
      exact (h.keys.same _ (ps.map TParam.means, prio) _ _ h3 hkey h5 ek).1 hs
  · have hr' : r = none := by
      cases r with
      | none => rfl
      | some y =>
        obtain ⟨x', k, f, data⟩ := y
        cases f <;> simp [keyOut, entryOut, ho] at e4
    subst hr'
    simp only [keyOut, Option.some.injEq] at e4
    rw [ho] at e4
    obtain ⟨z, hz, hz'⟩ := code_refuse e4 hcne
    refine ⟨.exc z, _, S, hex _ ?_, h.rel, rfl, .inr ⟨?_, z, rfl, hz'⟩⟩
    · simp [DTab.replyEntry, hz]
    · intro hp x e' he hsame
      rcases hko with ⟨-, h0⟩ | ⟨key, rfl, -, -⟩
      · exact h0 hp
      · exact hs key rfl ((h.sim.hasSame h.keys (a := (ps.map TParam.means, prio)) hp ek).2 ⟨x, e', he, hsame⟩)

theorem mapM_show (w : Decl.WF d) (h : Known d kb tab P s E S) :
    ∀ (l0 : List (Nat × (d.kind.tk kb.nbytesKey).K × Option ActFn × List Int)) (l),
      l0.mapM elemOut = some l → (∀ x ∈ l, s.T x.1 = some x.2) →
      ∃ bs, (l0.mapM fun e => (⟨d.kind, kb, d.names, tab⟩ : DTab R).showEntry e.1 e.2.1 e.2.2.1 e.2.2.2) = some bs ∧
        bs.map BmEntry.handle = l.map Prod.fst ∧ ∀ b ∈ bs, ∃ e, S.T b.handle = some e ∧ Shows d e b
  | [], l, e, _ => by
    simp only [List.mapM_nil, pure, Option.some.injEq] at e
    subst e
    exact ⟨[], rfl, rfl, by simp⟩
  | y :: l0, l, e, hl => by
    simp only [List.mapM_cons, Option.bind_eq_bind] at e
    obtain ⟨z, e1, e⟩ := Option.bind_eq_some_iff.1 e
    obtain ⟨l', e2, e⟩ := Option.bind_eq_some_iff.1 e
    cases e
    obtain ⟨bs, hb, hm, hs⟩ := mapM_show w h l0 l' e2 (fun x hx => hl x (by simp [hx]))
    obtain ⟨x, k, fo, data⟩ := y
    simp only [elemOut, Option.map_eq_some_iff] at e1
    obtain ⟨f, rfl, rfl⟩ := e1
    have hx := hl (x, k, f, data) (by simp)
    obtain ⟨e', he', hrel⟩ := h.sim.toSpec hx
    obtain ⟨b, hb', hb1, hb2⟩ := showEntry_ok w h.keys tab hrel x
    refine ⟨b :: bs, ?_, by simp [hm, hb1], ?_⟩
    · simp only [List.mapM_cons, Option.bind_eq_bind]
      rw [hb', hb]; rfl
    · intro c hc
      rcases List.mem_cons.1 hc with rfl | hc
      · exact ⟨e', by rw [hb1]; exact he', hb2⟩
      · exact hs c hc

theorem step_entries (w : Decl.WF d) (h : Known d kb tab P s E S) :
    Stepped d S .entries ((⟨d.kind, kb, d.names, tab⟩ : DTab R).exec .entries) := by
  obtain ⟨out, tab', s', e, ⟨st, l, ho, hl, hT⟩, hr⟩ := h.exec .entries trivial
  obtain ⟨o', e1, e2⟩ := Option.map_eq_some_iff.1 e
  obtain ⟨l0, e3, e4⟩ := Option.bind_eq_some_iff.1 e1
  simp only [Prod.mk.injEq] at e2
  obtain ⟨e2, rfl⟩ := e2
  rw [ho] at e2
  simp only [AOut.entries.injEq] at e2
  subst e2
  obtain ⟨bs, hb, hm, hs⟩ := mapM_show w h l0 _ e4 hT
  refine ⟨.entries bs, _, S, ?_, h.rel, rfl, bs, rfl, ?_, hs⟩
  · simp only [DTab.exec, DTab.entries, Option.bind_eq_bind]
    rw [e3]
    simp only [Option.bind_some]
    rw [hb]; rfl
  · rw [hm]; exact h.sim.live.1 hl

theorem step_packet (h : Known d kb tab P s E S) (vals : List Bytes) (hv : ValuesOk d.fs vals) (nb ts : Nat) :
    Stepped d S (.packet vals nb ts) ((⟨d.kind, kb, d.names, tab⟩ : DTab R).exec (.packet vals nb ts)) := by
  obtain ⟨q, eq, hq, hm⟩ := h.keys.query vals hv
  obtain ⟨out, tab', s', e, ⟨st, ho⟩, hr⟩ := h.exec (.apply q nb ts) hq
  obtain ⟨⟨r, tab''⟩, e1, e2⟩ := Option.map_eq_some_iff.1 e
  simp only [Prod.mk.injEq] at e2
  obtain ⟨e2, rfl⟩ := e2
  have hex : (⟨d.kind, kb, d.names, tab⟩ : DTab R).exec (.packet vals nb ts) =
      some (.ran r.act r.hit r.index r.next, ⟨d.kind, kb, d.names, tab''⟩) := by
    simp only [DTab.exec, DTab.packet, Option.bind_eq_bind]
    rw [eq]
    simp only [Option.bind_some]
    rw [e1]; rfl
  rw [hex]
  refine ⟨_, _, S, rfl, hr S (h.sim.refl_of_eq st), rfl, ?_⟩
  rcases ho with ⟨hn, ho⟩ | ⟨x, k, a, hx, hmk, hbest, ho⟩
  · left
    refine ⟨?_, ?_⟩
    · intro y e' he' hall
      obtain ⟨key, ht, h1, h2, h3, h4, h5, h6⟩ := h.sim.toMap he'
      exact hn _ _ _ ht ((hm _ _ _ h3 h5).2 hall)
    · rw [ho] at e2
      simp only [AOut.ran.injEq] at e2
      obtain ⟨a1, a2, a3, a4⟩ := e2
      rw [a1, a2, a3, a4, h.sim.D, h.goto]
  · right
    obtain ⟨e', he', h1, h2, h3, h4, h5, h6⟩ := h.sim.toSpec hx
    refine ⟨x, e', ⟨he', (hm _ _ _ h3 h5).1 hmk, ?_⟩, ?_⟩
    · intro y e2' he2 hall
      obtain ⟨key2, ht2, g1, g2, g3, g4, g5, g6⟩ := h.sim.toMap he2
      have hp := h.keys.prio _ _ _ _ h3 g3 h5 g5
      rcases hbest y _ _ ht2 ((hm _ _ _ g3 g5).2 hall) with hlt | ⟨heq, hsl⟩
      · left; omega
      · right; exact ⟨by omega, hsl⟩
    · rw [ho] at e2
      simp only [AOut.ran.injEq] at e2
      obtain ⟨a1, a2, a3, a4⟩ := e2
      obtain ⟨f, data⟩ := a
      simp only at h1 h2
      rw [a1, a2, a3, a4, h.goto, h1, h2]

/-- One request about a table. -/
theorem step_ok (w : Decl.WF d) {t : DTab R} (h : TRel d t S) (c : Call)
    (hc : match c with
      | .packet vals _ _ => ValuesOk d.fs vals
      | .getByKey ps _ => ps ≠ []
      | _ => True) : Stepped d S c (t.exec c) := by
  obtain ⟨kb, tab, P, s, E, rfl, hk⟩ := h.known
  clear h
  rename' hk => h
  cases c with
  | add ps a data prio now => exact step_add w h ps a data prio now
  | delete x => exact step_delete h x
  | modify x a data => exact step_modify w h x a data
  | setDefault a data => exact step_setDefault w h a data
  | resetDefault => exact step_resetDefault w h
  | get x => exact step_get w h x
  | getByKey ps prio => exact step_getByKey w h ps hc prio
  | entries => exact step_entries w h
  | getDefault => exact step_getDefault h
  | count => exact step_count h
  | clear c => exact step_clear w h c
  | packet vals nb ts => exact step_packet h vals hc nb ts

/-! ## Loading -/

theorem loadKeys_some (k : KeyLaws d kb) : ∀ l : List ((List MParam × Int) × ActFn × List Int),
    (∀ e ∈ l, ParamsOk d.fs e.1.1) → ∃ es, loadKeys d.kind kb kb.nbytesKey l = some es
  | [], _ => ⟨[], rfl⟩
  | (x, y) :: l, h => by
    obtain ⟨es, e⟩ := loadKeys_some k l (fun z hz => h z (by simp [hz]))
    obtain ⟨key, e1, -⟩ := k.good x.1 x.2 (h (x, y) (by simp))
    exact ⟨(key, y) :: es, by simp [loadKeys, e1, e]⟩

/-- The keys built for the declared entries. -/
theorem loadKeys_rel : ∀ (l : List ((List MParam × Int) × ActFn × List Int)) {es},
    loadKeys d.kind kb kb.nbytesKey l = some es →
    List.Forall₂ (fun a b => buildKey d.kind kb kb.nbytesKey a.1.1 a.1.2 = some (some b.1) ∧ b.2 = a.2) l es
  | [], es, e => by
    simp only [loadKeys, Option.some.injEq] at e
    subst e; exact .nil
  | (x, y) :: l, es, e => by
    simp only [loadKeys, Option.bind_eq_bind] at e
    obtain ⟨key, e1, e⟩ := Option.bind_eq_some_iff.1 e
    obtain ⟨es', e2, e⟩ := Option.bind_eq_some_iff.1 e
    cases e
    refine .cons ⟨?_, rfl⟩ (loadKeys_rel l e2)
    cases hb : buildKey d.kind kb kb.nbytesKey x.1 x.2 with
    | none => rw [hb] at e1; simp at e1
    | some o => rw [hb] at e1; simpa using e1

/-- The declared entries under the given handles. -/
def assign : List Nat → List ((List MParam × Int) × ActFn × List Int) → Nat → Option SEntry
  | x :: hs, e :: l, h => if h = x then some ⟨e.1, e.2.1, e.2.2⟩ else assign hs l h
  | _, _, _ => none

theorem assign_none : ∀ (hs l) {h : Nat}, h ∉ hs → assign hs l h = none
  | [], _, _, _ => by simp [assign]
  | _ :: _, [], _, _ => by simp [assign]
  | x :: hs, e :: l, h, hn => by
    simp only [List.mem_cons, not_or] at hn
    simp [assign, hn.1, assign_none hs l hn.2]

theorem assign_map : ∀ (hs : List Nat) (l : List ((List MParam × Int) × ActFn × List Int)), hs.Nodup → hs.length = l.length →
    hs.map (assign hs l) = l.map fun e => some (⟨e.1, e.2.1, e.2.2⟩ : SEntry)
  | [], [], _, _ => rfl
  | x :: hs, e :: l, hn, hl => by
    obtain ⟨h1, h2⟩ := List.nodup_cons.1 hn
    have ih := assign_map hs l h2 (by simpa using hl)
    simp only [List.map_cons]
    congr 1
    · simp [assign]
    · rw [← ih]
      apply List.map_congr_left
      intro y hy
      have : y ≠ x := fun hc => h1 (hc ▸ hy)
      simp [assign, this]

theorem assign_rel {T : Nat → Option ((d.kind.tk kb.nbytesKey).K × (ActFn × List Int))} :
    ∀ (hs : List Nat) (l : List ((List MParam × Int) × ActFn × List Int))
      (es : List ((d.kind.tk kb.nbytesKey).K × ActFn × List Int)), hs.Nodup →
      List.Forall₂ (fun a b => buildKey d.kind kb kb.nbytesKey a.1.1 a.1.2 = some (some b.1) ∧ b.2 = a.2) l es →
      hs.map T = es.map (fun e => some (e.1, e.2.1, e.2.2)) →
      (∀ e ∈ l, ParamsOk d.fs e.1.1 ∧ VBits e.1.1 ∧ e.2.1 ∈ d.names.map Prod.snd ∧ ∀ v ∈ e.2.2, 0 ≤ v) →
      ∀ h ∈ hs, EntryRel d kb (T h) (assign hs l h)
  | [], _, _, _, _, _, _, h, hh => by simp at hh
  | x :: hs, [], es, _, hf, hm, _, h, _ => by
    cases hf; simp at hm
  | x :: hs, e :: l, es, hn, hf, hm, hl, h, hh => by
    obtain ⟨h1, h2⟩ := List.nodup_cons.1 hn
    cases hf with
    | cons hab hf =>
      rename_i b es'
      simp only [List.map_cons, List.cons.injEq] at hm
      by_cases hx : h = x
      · subst hx
        simp only [assign, if_pos]
        rw [hm.1]
        obtain ⟨k1, k2, k3, k4⟩ := hl e (by simp)
        refine ⟨?_, ?_, k1, k2, hab.1, ?_, ?_⟩
        · rw [hab.2]
        · rw [hab.2]
        · rw [hab.2]; exact k3
        · rw [hab.2]; exact k4
      · simp only [assign, if_neg hx]
        refine assign_rel hs l es' h2 hf hm.2 (fun e he => hl e (by simp [he])) h ?_
        simpa [hx] using hh

theorem loadEntries_rel {o : Option (List ((List MParam × Int) × ActFn × List Int))} {es}
    (e : loadEntries d.kind kb kb.nbytesKey o = some es) :
    es.isSome = o.isSome ∧
    List.Forall₂ (fun a b => buildKey d.kind kb kb.nbytesKey a.1.1 a.1.2 = some (some b.1) ∧ b.2 = a.2)
      (o.getD []) (es.getD []) := by
  cases o with
  | none =>
    simp only [loadEntries, Option.some.injEq] at e
    subst e
    exact ⟨rfl, .nil⟩
  | some l =>
    simp only [loadEntries, Option.map_eq_some_iff] at e
    obtain ⟨es', e, rfl⟩ := e
    exact ⟨rfl, loadKeys_rel l e⟩

theorem forall₂_mem {α β : Type} {Q : α → β → Prop} {l : List α} {l' : List β} (h : List.Forall₂ Q l l') :
    ∀ b ∈ l', ∃ a ∈ l, Q a b := by
  induction h with
  | nil => simp
  | cons hab _ ih =>
    intro b hb
    rcases List.mem_cons.1 hb with rfl | hb
    · exact ⟨_, by simp, hab⟩
    · obtain ⟨a, ha, hq⟩ := ih b hb
      exact ⟨a, by simp [ha], hq⟩

theorem forall₂_length {α β : Type} {Q : α → β → Prop} {l : List α} {l' : List β} (h : List.Forall₂ Q l l') :
    l.length = l'.length := by
  induction h with
  | nil => rfl
  | cons _ _ ih => simp [ih]

theorem forall₂_pairwise {α β : Type} {Q : α → β → Prop} {A : α → α → Prop} {B : β → β → Prop}
    {l : List α} {l' : List β} (h : List.Forall₂ Q l l') (hp : l.Pairwise A)
    (hab : ∀ a ∈ l, ∀ a' ∈ l, ∀ b b', Q a b → Q a' b' → A a a' → B b b') : l'.Pairwise B := by
  induction h with
  | nil => exact .nil
  | cons hq hf ih =>
    rename_i a b l l'
    obtain ⟨h1, h2⟩ := List.pairwise_cons.1 hp
    refine List.pairwise_cons.2 ⟨?_, ih h2 ?_⟩
    · intro b' hb'
      obtain ⟨a', ha', hq'⟩ := forall₂_mem hf b' hb'
      exact hab a (by simp) a' (by simp [ha']) b b' hq hq' (h1 a' ha')
    · intro x hx y hy; exact hab x (by simp [hx]) y (by simp [hy])

/-- The declaration below, with keys. -/
def below (d : Decl) (kb : KeyB) (es : Option (List ((d.kind.tk kb.nbytesKey).K × ActFn × List Int))) :
    TableDecl (d.kind.tk kb.nbytesKey).K :=
  { actions := d.prog.actions, hitMiss := d.prog.hitMiss, base := d.prog.base, dflt := d.prog.dflt, entries := es }

theorem below_wf (w : Decl.WF d) (k : KeyLaws d kb) {es}
    (e : loadEntries d.kind kb kb.nbytesKey d.prog.entries = some es) :
    (below d kb es).WF (d.kind.tk kb.nbytesKey).spec := by
  refine ⟨w.ids, ?_⟩
  intro l hl b hb
  obtain ⟨-, hf⟩ := loadEntries_rel e
  have : es = some l := hl
  rw [this] at hf
  obtain ⟨a, ha, h1, h2⟩ := forall₂_mem hf b hb
  obtain ⟨g1, g2, -⟩ := w.entries a ha
  obtain ⟨key, e1, hk, -⟩ := k.good _ a.1.2 g1
  rw [h1] at e1
  cases e1
  exact ⟨hk, by rw [h2]; exact g2⟩

theorem below_sound (w : Decl.WF d) (k : KeyLaws d kb) {es}
    (e : loadEntries d.kind kb kb.nbytesKey d.prog.entries = some es) :
    (below d kb es).Sound (d.kind.tk kb.nbytesKey).spec d.size (decide (kb.nbytesKey = 0)) := by
  obtain ⟨-, hf⟩ := loadEntries_rel e
  have hlen := forall₂_length hf
  refine ⟨below_wf w k e, ?_, ?_, ?_, ?_, ?_⟩
  · intro x hx
    obtain ⟨h1, h2, -⟩ := w.dflt x hx
    exact ⟨h1, h2⟩
  · intro hne
    have : d.prog.entries.getD [] ≠ [] := by
      intro hc
      apply hne
      rw [hc] at hlen
      exact List.length_eq_zero_iff.1 hlen.symm
    simpa [k.empty] using w.keyed this
  · intro b hb
    obtain ⟨a, ha, h1, h2⟩ := forall₂_mem hf b hb
    rw [h2]
    exact (w.entries a ha).2.2.1
  · have := w.fits
    show (es.getD []).length ≤ _
    omega
  · refine forall₂_pairwise hf w.distinct ?_
    intro a ha a' ha' b b' hq hq' hn hs
    exact hn ((k.same a.1 a'.1 _ _ (w.entries a ha).1 (w.entries a' ha').1 hq.1 hq'.1).1 hs)

theorem load_loads (w : Decl.WF d) (meters : Nat → R) : ∃ t, DTab.load d meters = some t := by
  obtain ⟨kb, ek, -⟩ := KeyB.build_ok d.fs (wf_fieldsOk w)
  have k := keyLaws w ek
  obtain ⟨es, ee⟩ : ∃ es, loadEntries d.kind kb kb.nbytesKey d.prog.entries = some es := by
    cases h : d.prog.entries with
    | none => exact ⟨none, rfl⟩
    | some l =>
      obtain ⟨es, e⟩ := loadKeys_some k l (fun e he => (w.entries e (by rw [h]; exact he)).1)
      exact ⟨some es, by simp [loadEntries, e]⟩
  obtain ⟨tab, et⟩ := load_some (d.kind.tk kb.nbytesKey).laws (below d kb es) w.size (below_sound w k ee) meters
  refine ⟨⟨d.kind, kb, d.names, tab⟩, ?_⟩
  unfold DTab.load
  simp only [Option.bind_eq_bind]
  rw [ek]
  simp only [Option.bind_some]
  rw [ee]
  simp only [Option.bind_some]
  have : MT.Tab.load (d.kind.tk kb.nbytesKey).str d.size kb.nbytesKey meters
    { actions := d.prog.actions, hitMiss := d.prog.hitMiss, base := d.prog.base, dflt := d.prog.dflt, entries := es } = some tab := et
  rw [this]; rfl

theorem load_rel (w : Decl.WF d) {meters : Nat → R} {t : DTab R} (e : DTab.load d meters = some t) :
    ∃ S, TRel d t S ∧ Start d S := by
  unfold DTab.load at e
  obtain ⟨kb, ek, e⟩ := Option.bind_eq_some_iff.1 e
  obtain ⟨es, ee, e⟩ := Option.bind_eq_some_iff.1 e
  obtain ⟨tab, et, e⟩ := Option.bind_eq_some_iff.1 e
  cases e
  have k := keyLaws w ek
  obtain ⟨s, E, hr, ⟨hD, hs, hl, hm⟩, hz, hzk⟩ :=
    load_ok (d.kind.tk kb.nbytesKey).laws (below d kb es) (below_wf w k ee) w.size meters et
  obtain ⟨hsome, hf⟩ := loadEntries_rel ee
  have hlen := forall₂_length hf
  have hhs : hs.length = (d.prog.entries.getD []).length := by
    have := congrArg List.length hm
    simp only [List.length_map] at this
    rw [hlen]; exact this
  have hD' : s.D = d.prog.default0 := hD
  refine ⟨⟨assign hs (d.prog.entries.getD []), d.prog.default0⟩,
    ⟨kb, tab, below d kb es, s, E, rfl, k, ⟨rfl, rfl, rfl, rfl, hsome⟩, hr, hz, hzk, hD', default0_ok w, ?_⟩,
    rfl, hs, ⟨hl.1, ?_⟩, assign_map hs _ hl.1 hhs⟩
  · intro h
    by_cases hh : h ∈ hs
    · refine assign_rel hs _ _ hl.1 hf hm ?_ h hh
      intro a ha
      obtain ⟨g1, g2, g3, g4, g5⟩ := w.entries a ha
      exact ⟨g1, g5, by rw [w.acts]; exact g2, g4⟩
    · have h1 : s.T h = none := by
        have := (hl.2 h).not.1 hh
        simpa using this
      rw [h1]
      simp only [assign_none hs _ hh]
      trivial
  · intro h
    constructor
    · intro hh
      have h1 := List.mem_map_of_mem (f := assign hs (d.prog.entries.getD [])) hh
      rw [assign_map hs _ hl.1 hhs] at h1
      obtain ⟨x, -, hx⟩ := List.mem_map.1 h1
      show (assign hs (d.prog.entries.getD []) h).isSome = true
      rw [← hx]; rfl
    · intro hh
      by_contra hc
      have : (assign hs (d.prog.entries.getD []) h).isSome = true := hh
      rw [assign_none hs _ hc] at this
      simp at this

/-! ## Several tables -/

/-- Tables of the switch and states of the specification. -/
def OneRel : Option Table → Option (AnyTab R) → STab → Prop
  | none, none, _ => True
  | some .indirect, some .indirect, _ => True
  | some (.direct d), some (.direct t), S => TRel d t S
  | _, _, _ => False

theorem exec_ok {tabs : String → Option Table} (hw : ∀ n d, tabs n = some (.direct d) → Decl.WF d)
    {c : Ctx R} {s : String → STab} (h : ∀ n, OneRel (tabs n) (c n) (s n)) (n : String) (call : Call)
    (hc : Considered tabs n call) :
    ∃ r c' s', c.exec n call = some (r, c') ∧ (∀ n, OneRel (tabs n) (c' n) (s' n)) ∧ SwStep tabs s n call s' r := by
  have hn := h n
  unfold Ctx.exec SwStep
  unfold Considered at hc
  cases ht : tabs n with
  | none =>
    rw [ht] at hn hc
    cases hcn : c n with
    | some x => rw [hcn] at hn; exact hn.elim
    | none =>
      have : noTable call = some (.exc .invalidTableName) := by
        cases call <;> simp [Call.reads] at hc <;> rfl
      simp only [this]
      exact ⟨_, c, s, rfl, h, rfl, _, rfl, rfl⟩
  | some tb =>
    rw [ht] at hn hc
    cases tb with
    | indirect =>
      cases hcn : c n with
      | none => rw [hcn] at hn; exact hn.elim
      | some x =>
        rw [hcn] at hn
        cases x with
        | direct t => exact hn.elim
        | indirect =>
          have : otherTable call = some (.exc .wrongTableType) := by
            cases call <;> simp [Call.writes] at hc <;> rfl
          simp only [this]
          exact ⟨_, c, s, rfl, h, rfl, _, rfl, rfl⟩
    | direct d =>
      cases hcn : c n with
      | none => rw [hcn] at hn; exact hn.elim
      | some x =>
        rw [hcn] at hn
        cases x with
        | indirect => exact hn.elim
        | direct t =>
          obtain ⟨r, t', S', e, hr, st⟩ := step_ok (hw n d ht) hn call hc
          simp only [e]
          refine ⟨r, _, fun m => if m = n then S' else s m, rfl, ?_, ?_, ?_⟩
          · intro m
            by_cases hm : m = n
            · subst hm
              simp only [if_true, ht]
              exact hr
            · simp only [if_neg hm]; exact h m
          · simpa using st
          · intro m hm; simp [hm]

theorem run_ok {tabs : String → Option Table} (hw : ∀ n d, tabs n = some (.direct d) → Decl.WF d) :
    ∀ (ops : List (String × Call)) {c : Ctx R} {s : String → STab}, (∀ n, OneRel (tabs n) (c n) (s n)) →
      (∀ x ∈ ops, Considered tabs x.1 x.2) →
      ∃ rs c' s', c.run ops = some (rs, c') ∧ Trace tabs s ops rs s'
  | [], c, s, _, _ => ⟨[], c, s, rfl, .nil s⟩
  | (n, call) :: ops, c, s, h, hc => by
    obtain ⟨r, c', s', e, h', st⟩ := exec_ok hw h n call (hc (n, call) (by simp))
    obtain ⟨rs, c'', s'', e', tr⟩ := run_ok hw ops h' (fun x hx => hc x (by simp [hx]))
    exact ⟨r :: rs, c'', s'', by simp [Ctx.run, e, e'], .cons st tr⟩

theorem named_cons (n : String) (tb : Table) (l : List (String × Table)) (m : String) :
    named ((n, tb) :: l) m = if m = n then some tb else named l m := by
  unfold named
  by_cases h : m = n
  · subst h; simp
  · have : ¬ n = m := fun hc => h hc.symm
    simp [List.find?_cons, this, h]

theorem ctxLoad_rel (meters : Nat → R) : ∀ (l : List (String × Table)),
    (∀ n d, (n, Table.direct d) ∈ l → Decl.WF d) →
    ∃ c, Ctx.load meters l = some c ∧ ∃ s : String → STab, (∀ n, OneRel (named l n) (c n) (s n)) ∧
      ∀ n d, named l n = some (.direct d) → Start d (s n)
  | [], _ => ⟨fun _ => none, rfl, fun _ => ⟨fun _ => none, none⟩, fun _ => trivial, by simp [named]⟩
  | (n, tb) :: l, hw => by
    obtain ⟨c, e, s, h1, h2⟩ := ctxLoad_rel meters l (fun m d hm => hw m d (by simp [hm]))
    cases tb with
    | indirect =>
      refine ⟨fun m => if m = n then some .indirect else c m, by simp [Ctx.load, e, AnyTab.load], s, ?_, ?_⟩
      · intro m
        rw [named_cons]
        by_cases hm : m = n
        · simp only [if_pos hm]; trivial
        · simp only [if_neg hm]; exact h1 m
      · intro m d hm
        rw [named_cons] at hm
        split at hm
        · simp at hm
        · exact h2 m d hm
    | direct d =>
      have w := hw n d (by simp)
      obtain ⟨t, et⟩ := load_loads w meters
      obtain ⟨S, hr, hs⟩ := load_rel w et
      refine ⟨fun m => if m = n then some (.direct t) else c m, by simp [Ctx.load, e, AnyTab.load, et],
        fun m => if m = n then S else s m, ?_, ?_⟩
      · intro m
        rw [named_cons]
        by_cases hm : m = n
        · simp only [if_pos hm]; exact hr
        · simp only [if_neg hm]; exact h1 m
      · intro m d' hm
        rw [named_cons] at hm
        split at hm
        · rename_i hmn
          cases hm
          simpa [hmn] using hs
        · rename_i hmn
          simpa [hmn] using h2 m d' hm

theorem named_mem {l : List (String × Table)} {n : String} {tb : Table} (h : named l n = some tb) : (n, tb) ∈ l := by
  unfold named at h
  simp only [Option.map_eq_some_iff] at h
  obtain ⟨x, hx, rfl⟩ := h
  have h1 := List.find?_some hx
  have h2 := List.mem_of_find?_eq_some hx
  have h3 : x.1 = n := by simpa using h1
  rw [← h3]; exact h2

end Bm.Thrift
