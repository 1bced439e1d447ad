import Verif.Model.ThriftProf
import Verif.Lemmas.Thrift
import Verif.Lemmas.ProfileRun

/-! # Keys as they were written and keys as they are stored -/

namespace Bm.Thrift
open Bm.Spec Bm.Thrift.Spec

variable {n : Nat} {R : Type}

abbrev Act := ActFn × List Int

/-- The context of a declaration. -/
def ctxOf (d : PDecl n) (kb : Fin n → KeyB) : PCtx n :=
  { name := d.name, acts := d.acts, tname := fun i => (d.tab i).name, ws := fun i => (d.tab i).ws
    direct := d.direct, kd := fun i => (d.tab i).kind, kb }

/-- States of `Model/ActionProfile`. -/
abbrev KState (d : PDecl n) (kb : Fin n → KeyB) := PState (Fin n) (KeyOf (ctxOf d kb).kind) Act

abbrev KOp (d : PDecl n) (kb : Fin n → KeyB) := POp (Fin n) (KeyOf (ctxOf d kb).kind) Act
abbrev COp (n : Nat) := POp (Fin n) (fun _ => CKey) Act

/-- The tables, as the model has them. -/
def kcfg (d : PDecl n) (kb : Fin n → KeyB) : PCfg (Fin n) (KeyOf (ctxOf d kb).kind) where
  sp := fun i => ((ctxOf d kb).kind i).spec
  size := fun i => (d.tab i).size
  keyless := fun i => decide ((d.tab i).fs = [])
  constDflt := fun i => (d.tab i).constDflt

/-- The key that is built. -/
abbrev built (d : PDecl n) (kb : Fin n → KeyB) (i : Fin n) (k : CKey) :
    Option (Option ((ctxOf d kb).kind i).K) :=
  buildKey (d.tab i).kind (kb i) (kb i).nbytesKey k.1 k.2

/-- Entries. -/
def IRel (d : PDecl n) (kb : Fin n → KeyB) (i : Fin n) :
    Option (((ctxOf d kb).kind i).K × Ref) → Option (CKey × Ref) → Prop
  | none, none => True
  | some (key, r), some e => e.2 = r ∧ ParamsOk (d.tab i).fs e.1.1 ∧ VBits e.1.1 ∧ built d kb i e.1 = some (some key)
  | _, _ => False

/-- Tables. -/
def TRelI (d : PDecl n) (kb : Fin n → KeyB) (i : Fin n) (T : Nat → Option (((ctxOf d kb).kind i).K × Ref))
    (S : Nat → Option (CKey × Ref)) : Prop := ∀ h, IRel d kb i (T h) (S h)

section
variable {d : PDecl n} {kb : Fin n → KeyB} {i : Fin n} {T : Nat → Option (((ctxOf d kb).kind i).K × Ref)}
  {S : Nat → Option (CKey × Ref)}

theorem TRelI.isSome (h : TRelI d kb i T S) (x : Nat) : (T x).isSome = (S x).isSome := by
  have := h x
  cases e : T x <;> cases e' : S x <;> rw [e, e'] at this <;> simp_all [IRel]

theorem TRelI.free (h : TRelI d kb i T S) {x : Nat} : T x = none ↔ S x = none := by
  have := h.isSome x
  cases e : T x <;> cases e' : S x <;> rw [e, e'] at this <;> simp_all

theorem TRelI.toK (h : TRelI d kb i T S) {x : Nat} {e : CKey × Ref} (he : S x = some e) :
    ∃ key, T x = some (key, e.2) ∧ ParamsOk (d.tab i).fs e.1.1 ∧ VBits e.1.1 ∧ built d kb i e.1 = some (some key) := by
  have h1 := h x
  cases e' : T x with
  | none => rw [he, e'] at h1; exact h1.elim
  | some y =>
    obtain ⟨key, r⟩ := y
    rw [he, e'] at h1
    obtain ⟨rfl, h2⟩ := h1
    exact ⟨key, rfl, h2⟩

theorem TRelI.toC (h : TRelI d kb i T S) {x : Nat} {key r} (he : T x = some (key, r)) :
    ∃ k, S x = some (k, r) ∧ ParamsOk (d.tab i).fs k.1 ∧ VBits k.1 ∧ built d kb i k = some (some key) := by
  have h1 := h x
  cases e' : S x with
  | none => rw [he, e'] at h1; exact h1.elim
  | some e =>
    obtain ⟨k, r'⟩ := e
    rw [he, e'] at h1
    obtain ⟨h0, h2⟩ := h1
    cases h0
    exact ⟨k, rfl, h2⟩

theorem TRelI.live (h : TRelI d kb i T S) {l : List Nat} : Live T l ↔ Live S l := by
  unfold Live
  simp [h.isSome]

theorem TRelI.hasSame (laws : KeyLaws (keysOf (d.tab i)) (kb i)) (h : TRelI d kb i T S) {a : CKey} {ka}
    (ha : ParamsOk (d.tab i).fs a.1) (hb : built d kb i a = some (some ka)) :
    HasSame ((ctxOf d kb).kind i).spec T ka ↔ HasSame ((pcfg d).sp i) S a := by
  constructor
  · rintro ⟨x, k', v', ht, hs⟩
    obtain ⟨k, he, h1, h2, h3⟩ := h.toC ht
    exact ⟨x, k, v', he, (laws.same k a _ _ h1 ha h3 hb).1 hs⟩
  · rintro ⟨x, k, v', he, hs⟩
    obtain ⟨key, ht, h1, h2, h3⟩ := h.toK he
    exact ⟨x, key, v', ht, (laws.same k a _ _ h1 ha h3 hb).2 hs⟩

theorem TRelI.set (h : TRelI d kb i T S) (x : Nat) {a b} (hab : IRel d kb i a b) :
    TRelI d kb i (fun y => if y = x then a else T y) (fun y => if y = x then b else S y) := by
  intro y
  by_cases hy : y = x
  · simp only [if_pos hy]; exact hab
  · simp only [if_neg hy]; exact h y

end

/-- States. -/
structure CSim (d : PDecl n) (kb : Fin n → KeyB) (sc : KState d kb) (s : CState n) : Prop where
  mem : sc.mem = s.mem
  grp : sc.grp = s.grp
  dflt : sc.dflt = s.dflt
  tab : ∀ i, TRelI d kb i (sc.tab i) (s.tab i)

section
variable {d : PDecl n} {kb : Fin n → KeyB} {sc sc' : KState d kb} {s : CState n}

theorem CSim.has (h : CSim d kb sc s) (r : Ref) : sc.Has r ↔ s.Has r := by
  cases r <;> simp [PState.Has, h.mem, h.grp]

theorem CSim.used (h : CSim d kb sc s) (r : Ref) : sc.Used r ↔ s.Used r := by
  unfold PState.Used
  rw [h.dflt, h.grp]
  refine or_congr ⟨?_, ?_⟩ Iff.rfl
  · rintro ⟨i, x, k, e⟩
    obtain ⟨k', e', -⟩ := (h.tab i).toC e
    exact ⟨i, x, k', e'⟩
  · rintro ⟨i, x, k, e⟩
    obtain ⟨k', e', -⟩ := (h.tab i).toK e
    exact ⟨i, x, k', e'⟩

theorem CSim.refErr (h : CSim d kb sc s) (r : Ref) (e : PErr) : sc.RefErr r e ↔ s.RefErr r e := by
  cases r <;> simp [PState.RefErr, h.mem, h.grp]

theorem CSim.setMem (h : CSim d kb sc s) (m) : CSim d kb { sc with mem := m } { s with mem := m } :=
  ⟨rfl, h.grp, h.dflt, h.tab⟩

theorem CSim.setGrp (h : CSim d kb sc s) (m) : CSim d kb { sc with grp := m } { s with grp := m } :=
  ⟨h.mem, rfl, h.dflt, h.tab⟩

theorem CSim.setDflt (h : CSim d kb sc s) (m) : CSim d kb { sc with dflt := m } { s with dflt := m } :=
  ⟨h.mem, h.grp, rfl, h.tab⟩

theorem CSim.setTab (h : CSim d kb sc s) (i : Fin n) {T S} (hT : TRelI d kb i T S) :
    CSim d kb { sc with tab := upd sc.tab i T } { s with tab := upd s.tab i S } := by
  refine ⟨h.mem, h.grp, h.dflt, fun j => ?_⟩
  by_cases hj : j = i
  · subst hj; simp only [upd_self]; exact hT
  · simp only [upd_ne _ _ _ hj]; exact h.tab j

theorem CSim.numEntries (h : CSim d kb sc s) (i : Fin n) (r : Ref) (m : Nat) :
    NumEntries (sc.tab i) r m ↔ NumEntries (s.tab i) r m := by
  unfold NumEntries
  refine exists_congr fun l => and_congr (forall_congr' fun x => ?_) Iff.rfl
  refine iff_congr Iff.rfl ⟨?_, ?_⟩
  · rintro ⟨k, e⟩
    obtain ⟨k', e', -⟩ := (h.tab i).toC e
    exact ⟨k', e'⟩
  · rintro ⟨k, e⟩
    obtain ⟨k', e', -⟩ := (h.tab i).toK e
    exact ⟨k', e'⟩

end

/-- Results without the keys. -/
def recast {ι : Type} {K K' : ι → Type} {A : Type} : POut ι K A → POut ι K' A
  | .err e => .err e
  | .done => .done
  | .id m => .id m
  | .tab i (.err e) => .tab i (.err e)
  | .tab i .done => .tab i .done
  | .tab i (.handle h) => .tab i (.handle h)
  | _ => .done

/-- Results of calls that write. -/
inductive Wr {ι : Type} {K : ι → Type} {A : Type} : POut ι K A → Prop
  | err (e) : Wr (.err e)
  | done : Wr .done
  | id (m) : Wr (.id m)
  | terr (i e) : Wr (.tab i (.err e))
  | tdone (i) : Wr (.tab i .done)
  | thandle (i h) : Wr (.tab i (.handle h))

/-- Corresponding calls. -/
inductive OpRel (d : PDecl n) (kb : Fin n → KeyB) : KOp d kb → COp n → Prop
  | addMember (a) : OpRel d kb (.addMember a) (.addMember a)
  | delMember (m) : OpRel d kb (.delMember m) (.delMember m)
  | modMember (m a) : OpRel d kb (.modMember m a) (.modMember m a)
  | newGroup : OpRel d kb .newGroup .newGroup
  | delGroup (g) : OpRel d kb (.delGroup g) (.delGroup g)
  | join (m g) : OpRel d kb (.join m g) (.join m g)
  | leave (m g) : OpRel d kb (.leave m g) (.leave m g)
  | tAddBad (i r now) : OpRel d kb (.tAdd i none r now) (.tAdd i none r now)
  | tAdd (i key k r now) (h1 : ParamsOk (d.tab i).fs k.1) (h2 : VBits k.1) (h3 : built d kb i k = some (some key)) :
      OpRel d kb (.tAdd i (some key) r now) (.tAdd i (some k) r now)
  | tDel (i h) : OpRel d kb (.tDel i h) (.tDel i h)
  | tMod (i h r) : OpRel d kb (.tMod i h r) (.tMod i h r)
  | setDflt (i r) : OpRel d kb (.setDflt i r) (.setDflt i r)
  | unsetDflt (i) : OpRel d kb (.unsetDflt i) (.unsetDflt i)
  | clear (i b) : OpRel d kb (.clear i b) (.clear i b)

section
variable {d : PDecl n} {kb : Fin n → KeyB} {sc sc' : KState d kb} {s : CState n}

/-- Additions to a table. -/
theorem tadd_lift {i : Fin n} (laws : KeyLaws (keysOf (d.tab i)) (kb i)) {T T' S o key k r now}
    (hT : TRelI d kb i T S) (hk : (key = none ∧ k = none) ∨ ∃ key' k', key = some key' ∧ k = some k' ∧
      ParamsOk (d.tab i).fs k'.1 ∧ VBits k'.1 ∧ built d kb i k' = some (some key'))
    (h : TStep ((kcfg d kb).sp i) ((kcfg d kb).size i) ((kcfg d kb).keyless i) T (.add key r now) T' o) :
    ∃ S' o', TRelI d kb i T' S' ∧
      TStep ((pcfg d).sp i) ((pcfg d).size i) ((pcfg d).keyless i) S (.add k r now) S' o' ∧
      ((∃ e, o = .err e ∧ o' = .err e) ∨ ∃ x, o = .handle x ∧ o' = .handle x) := by
  have hkl : (kcfg d kb).keyless i = (pcfg d).keyless i := rfl
  have hsz : (kcfg d kb).size i = (pcfg d).size i := rfl
  rw [hkl, hsz] at h
  cases hkk : (pcfg d).keyless i with
  | true =>
    rw [hkk] at h
    simp only [TStep] at h
    obtain ⟨rfl, rfl⟩ := h
    exact ⟨S, _, hT, by simp only [TStep]; exact ⟨trivial, trivial⟩, .inl ⟨_, rfl, rfl⟩⟩
  | false =>
    rw [hkk] at h
    rcases hk with ⟨rfl, rfl⟩ | ⟨key', k', rfl, rfl, h1, h2, h3⟩
    · simp only [TStep] at h
      obtain ⟨rfl, rfl⟩ := h
      exact ⟨S, _, hT, by simp only [TStep]; exact ⟨trivial, trivial⟩, .inl ⟨_, rfl, rfl⟩⟩
    · have hs := hT.hasSame laws h1 h3
      simp only [TStep] at h
      rcases h with ⟨hh, rfl, rfl⟩ | ⟨hh, ⟨l, hl, hl'⟩, rfl, rfl⟩ | ⟨hh, ⟨l, hl, hl'⟩, x, rfl, hx, hf, hsl, rfl⟩
      · exact ⟨S, _, hT, by simp only [TStep]; exact .inl ⟨hs.1 hh, trivial, trivial⟩, .inl ⟨_, rfl, rfl⟩⟩
      · exact ⟨S, _, hT, by
          simp only [TStep]
          exact .inr (.inl ⟨fun c => hh (hs.2 c), ⟨l, hT.live.1 hl, hl'⟩, trivial, trivial⟩), .inl ⟨_, rfl, rfl⟩⟩
      · refine ⟨_, _, hT.set x (a := some (key', r)) (b := some (k', r)) ⟨rfl, h1, h2, h3⟩, ?_, .inr ⟨x, rfl, rfl⟩⟩
        simp only [TStep]
        exact .inr (.inr ⟨fun c => hh (hs.2 c), ⟨l, hT.live.1 hl, hl'⟩, x, rfl, hx, hT.free.1 hf,
          fun y hy => hsl y (by rw [hT.isSome]; exact hy), rfl⟩)

theorem add_lift (laws : ∀ i, KeyLaws (keysOf (d.tab i)) (kb i)) (sim : CSim d kb sc s) {L L' : Ref → Nat}
    {i key k r now out} (hk : (key = none ∧ k = none) ∨ ∃ key' k', key = some key' ∧ k = some k' ∧
      ParamsOk (d.tab i).fs k'.1 ∧ VBits k'.1 ∧ built d kb i k' = some (some key'))
    (h : PStepL (kcfg d kb) sc L (.tAdd i key r now) sc' L' out) :
    ∃ s', CSim d kb sc' s' ∧ PStepL (pcfg d) s L (.tAdd i k r now) s' L' (recast out) ∧ Wr out := by
  obtain ⟨h, hL⟩ := h
  rcases h with ⟨e, he, rfl, rfl⟩ | ⟨hno, T', o, ht, rfl, rfl⟩
  · refine ⟨s, sim, ⟨.inl ⟨e, (sim.refErr r e).1 he, rfl, rfl⟩, .inr ⟨by simp [recast], ?_⟩⟩, .err e⟩
    rcases hL with ⟨⟨e', he'⟩, -⟩ | ⟨-, hL⟩
    · cases he'
    · exact hL
  · obtain ⟨S', o', hT', st, ho⟩ := tadd_lift (laws i) (sim.tab i) hk ht
    have hno' : ∀ e, ¬ s.RefErr r e := fun e he => hno e ((sim.refErr r e).2 he)
    rcases ho with ⟨e, rfl, rfl⟩ | ⟨x, rfl, rfl⟩
    · refine ⟨_, sim.setTab i hT', ⟨.inr ⟨hno', S', _, st, rfl, rfl⟩, .inl ⟨⟨e, rfl⟩, ?_⟩⟩, .terr i e⟩
      rcases hL with ⟨-, hL⟩ | ⟨hL, -⟩
      · exact hL
      · exact absurd rfl (hL e)
    · refine ⟨_, sim.setTab i hT', ⟨.inr ⟨hno', S', _, st, rfl, rfl⟩, .inr ⟨by simp [recast], ?_⟩⟩, .thandle i x⟩
      rcases hL with ⟨⟨e, he⟩, -⟩ | ⟨-, hL⟩
      · cases he
      · exact hL

/-- A step of the model is a step for the keys as they were written. -/
theorem lift (laws : ∀ i, KeyLaws (keysOf (d.tab i)) (kb i)) (sim : CSim d kb sc s) {L L' : Ref → Nat} {op op' out}
    (ho : OpRel d kb op op') (h : PStepL (kcfg d kb) sc L op sc' L' out) :
    ∃ s', CSim d kb sc' s' ∧ PStepL (pcfg d) s L op' s' L' (recast out) ∧ Wr out := by
  cases ho with
  | addMember a =>
    obtain ⟨h, rfl⟩ := h
    cases a with
    | none =>
      obtain ⟨rfl, rfl⟩ := h
      exact ⟨s, sim, ⟨⟨rfl, rfl⟩, rfl⟩, .err _⟩
    | some a =>
      obtain ⟨m, h1, rfl, rfl⟩ := h
      rw [sim.mem] at h1 ⊢
      exact ⟨_, sim.setMem _, ⟨⟨m, h1, rfl, rfl⟩, rfl⟩, .id m⟩
  | delMember m =>
    obtain ⟨rfl, h⟩ := h
    rcases h with ⟨h0, h1, rfl, rfl⟩ | ⟨h0, ⟨h1, rfl, rfl⟩ | ⟨h1, h2, rfl, rfl⟩ | ⟨h1, h2, rfl, rfl⟩⟩
    · exact ⟨s, sim, ⟨rfl, .inl ⟨h0, (sim.has _).1 h1, rfl, rfl⟩⟩, .err _⟩
    · exact ⟨s, sim, ⟨rfl, .inr ⟨h0, .inl ⟨fun c => h1 ((sim.has _).2 c), rfl, rfl⟩⟩⟩, .err _⟩
    · exact ⟨s, sim, ⟨rfl, .inr ⟨h0, .inr (.inl ⟨(sim.has _).1 h1, (sim.used _).1 h2, rfl, rfl⟩)⟩⟩, .err _⟩
    · rw [sim.mem]
      exact ⟨_, sim.setMem _, ⟨rfl, .inr ⟨h0, .inr (.inr ⟨(sim.has _).1 h1, fun c => h2 ((sim.used _).2 c), rfl, rfl⟩)⟩⟩,
        .done⟩
  | modMember m a =>
    obtain ⟨h, rfl⟩ := h
    cases a with
    | none =>
      obtain ⟨rfl, rfl⟩ := h
      exact ⟨s, sim, ⟨⟨rfl, rfl⟩, rfl⟩, .err _⟩
    | some a =>
      rcases h with ⟨h1, rfl, rfl⟩ | ⟨h1, rfl, rfl⟩
      · exact ⟨s, sim, ⟨.inl ⟨fun c => h1 ((sim.has _).2 c), rfl, rfl⟩, rfl⟩, .err _⟩
      · rw [sim.mem]
        exact ⟨_, sim.setMem _, ⟨.inr ⟨(sim.has _).1 h1, rfl, rfl⟩, rfl⟩, .done⟩
  | newGroup =>
    obtain ⟨h, rfl⟩ := h
    obtain ⟨m, h1, rfl, rfl⟩ := h
    rw [sim.grp] at h1 ⊢
    exact ⟨_, sim.setGrp _, ⟨⟨m, h1, rfl, rfl⟩, rfl⟩, .id m⟩
  | delGroup m =>
    obtain ⟨rfl, h⟩ := h
    rcases h with ⟨h0, h1, rfl, rfl⟩ | ⟨h0, ⟨h1, rfl, rfl⟩ | ⟨h1, h2, rfl, rfl⟩ | ⟨h1, h2, rfl, rfl⟩⟩
    · exact ⟨s, sim, ⟨rfl, .inl ⟨h0, (sim.has _).1 h1, rfl, rfl⟩⟩, .err _⟩
    · exact ⟨s, sim, ⟨rfl, .inr ⟨h0, .inl ⟨fun c => h1 ((sim.has _).2 c), rfl, rfl⟩⟩⟩, .err _⟩
    · exact ⟨s, sim, ⟨rfl, .inr ⟨h0, .inr (.inl ⟨(sim.has _).1 h1, (sim.used _).1 h2, rfl, rfl⟩)⟩⟩, .err _⟩
    · rw [sim.grp]
      exact ⟨_, sim.setGrp _, ⟨rfl, .inr ⟨h0, .inr (.inr ⟨(sim.has _).1 h1, fun c => h2 ((sim.used _).2 c), rfl, rfl⟩)⟩⟩,
        .done⟩
  | join m g =>
    obtain ⟨h, rfl⟩ := h
    rcases h with ⟨h1, rfl, rfl⟩ | ⟨h1, h2, rfl, rfl⟩ | ⟨G, h1, h2, ⟨h3, rfl, rfl⟩ | ⟨h3, rfl, rfl⟩⟩
    · exact ⟨s, sim, ⟨.inl ⟨fun c => h1 ((sim.has _).2 c), rfl, rfl⟩, rfl⟩, .err _⟩
    · rw [sim.grp] at h2
      exact ⟨s, sim, ⟨.inr (.inl ⟨(sim.has _).1 h1, h2, rfl, rfl⟩), rfl⟩, .err _⟩
    · rw [sim.grp] at h2
      exact ⟨s, sim, ⟨.inr (.inr ⟨G, (sim.has _).1 h1, h2, .inl ⟨h3, rfl, rfl⟩⟩), rfl⟩, .err _⟩
    · rw [sim.grp] at h2 ⊢
      exact ⟨_, sim.setGrp _, ⟨.inr (.inr ⟨G, (sim.has _).1 h1, h2, .inr ⟨h3, rfl, rfl⟩⟩), rfl⟩, .done⟩
  | leave m g =>
    obtain ⟨h, rfl⟩ := h
    rcases h with ⟨h1, rfl, rfl⟩ | ⟨h1, h2, rfl, rfl⟩ | ⟨G, h1, h2, ⟨h3, rfl, rfl⟩ | ⟨h3, rfl, rfl⟩⟩
    · exact ⟨s, sim, ⟨.inl ⟨fun c => h1 ((sim.has _).2 c), rfl, rfl⟩, rfl⟩, .err _⟩
    · rw [sim.grp] at h2
      exact ⟨s, sim, ⟨.inr (.inl ⟨(sim.has _).1 h1, h2, rfl, rfl⟩), rfl⟩, .err _⟩
    · rw [sim.grp] at h2
      exact ⟨s, sim, ⟨.inr (.inr ⟨G, (sim.has _).1 h1, h2, .inl ⟨h3, rfl, rfl⟩⟩), rfl⟩, .err _⟩
    · rw [sim.grp] at h2 ⊢
      exact ⟨_, sim.setGrp _, ⟨.inr (.inr ⟨G, (sim.has _).1 h1, h2, .inr ⟨h3, rfl, rfl⟩⟩), rfl⟩, .done⟩
  | tAddBad i r now => exact add_lift laws sim (.inl ⟨rfl, rfl⟩) h
  | tAdd i key k r now h1 h2 h3 => exact add_lift laws sim (.inr ⟨key, k, rfl, rfl, h1, h2, h3⟩) h
  | tDel i x =>
    obtain ⟨⟨T', o, h, rfl, rfl⟩, rfl⟩ := h
    rcases h with ⟨h1, rfl, rfl⟩ | ⟨h1, rfl, rfl⟩
    · exact ⟨_, sim.setTab i ((sim.tab i).set x (a := none) (b := none) trivial),
        ⟨⟨_, _, .inl ⟨by rw [← (sim.tab i).isSome]; exact h1, rfl, rfl⟩, rfl, rfl⟩, rfl⟩, .tdone i⟩
    · exact ⟨_, sim.setTab i (sim.tab i), ⟨⟨_, _, .inr ⟨(sim.tab i).free.1 h1, rfl, rfl⟩, rfl, rfl⟩, rfl⟩, .terr i _⟩
  | tMod i x r =>
    obtain ⟨h, rfl⟩ := h
    rcases h with ⟨e, h1, h2, rfl, rfl⟩ | ⟨h1, T', o, h, rfl, rfl⟩
    · exact ⟨s, sim, ⟨.inl ⟨e, by rw [← (sim.tab i).isSome]; exact h1, (sim.refErr r e).1 h2, rfl, rfl⟩, rfl⟩, .err e⟩
    · have h1' : (s.tab i x).isSome = true → ∀ e, ¬ s.RefErr r e := fun c e he =>
        h1 (by rw [(sim.tab i).isSome]; exact c) e ((sim.refErr r e).2 he)
      rcases h with ⟨key, v', h2, rfl, rfl⟩ | ⟨h2, rfl, rfl⟩
      · obtain ⟨k, e1, e2, e3, e4⟩ := (sim.tab i).toC h2
        exact ⟨_, sim.setTab i ((sim.tab i).set x (a := some (key, r)) (b := some (k, r)) ⟨rfl, e2, e3, e4⟩),
          ⟨.inr ⟨h1', _, _, .inl ⟨k, v', e1, rfl, rfl⟩, rfl, rfl⟩, rfl⟩, .tdone i⟩
      · exact ⟨_, sim.setTab i (sim.tab i), ⟨.inr ⟨h1', _, _, .inr ⟨(sim.tab i).free.1 h2, rfl, rfl⟩, rfl, rfl⟩, rfl⟩,
          .terr i _⟩
  | setDflt i r =>
    obtain ⟨h, rfl⟩ := h
    rcases h with ⟨h1, rfl, rfl⟩ | ⟨h1, h2, rfl, rfl⟩ | ⟨h1, h2, rfl, rfl⟩
    · exact ⟨s, sim, ⟨.inl ⟨h1, rfl, rfl⟩, rfl⟩, .err _⟩
    · exact ⟨s, sim, ⟨.inr (.inl ⟨h1, fun c => h2 ((sim.has _).2 c), rfl, rfl⟩), rfl⟩, .err _⟩
    · rw [sim.dflt]
      exact ⟨_, sim.setDflt _, ⟨.inr (.inr ⟨h1, (sim.has _).1 h2, rfl, rfl⟩), rfl⟩, .done⟩
  | unsetDflt i =>
    obtain ⟨⟨rfl, rfl⟩, rfl⟩ := h
    rw [sim.dflt]
    exact ⟨_, sim.setDflt _, ⟨⟨rfl, rfl⟩, rfl⟩, .done⟩
  | clear i b =>
    obtain ⟨⟨rfl, rfl⟩, h⟩ := h
    have h1 := sim.setTab i (T := fun _ => none) (S := fun _ => none) (fun _ => trivial)
    have h2 := h1.setDflt (if b then upd s.dflt i none else s.dflt)
    rw [sim.dflt]
    refine ⟨_, h2, ⟨⟨rfl, rfl⟩, fun r => ?_⟩, .done⟩
    obtain ⟨m, hm, hm'⟩ := h r
    rw [sim.dflt] at hm'
    exact ⟨m, (sim.numEntries i r m).1 hm, hm'⟩

end

end Bm.Thrift
