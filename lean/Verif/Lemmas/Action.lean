import Verif.Model.Action
import Mathlib.Data.List.Forall2

/-!
# Lemmas on actions
-/

namespace Bm.Act
variable {σ X E : Type}

/-! ## Building -/

/-- A parameter stands for an argument that is no list. -/
def AtomOk (f : Fn σ X E) : Par X E → Atom X E → Prop
  | .const off, .hex v => f.consts[off]? = some v
  | .data i, .data j => i = j
  | .expr _ e, .expr e' => e = e'
  | .named x, .named y => x = y
  | .str i, .str t => f.strs[i]? = some t
  | _, _ => False

/-- A parameter stands for an argument. -/
def SrcOk (f : Fn σ X E) : Par X E → Src X E → Prop
  | p, .atom a => AtomOk f p a
  | .vec a b, .vec l => a ≤ b ∧ b ≤ f.sub.length ∧ List.Forall₂ (AtomOk f) ((f.sub.drop a).take (b - a)) l
  | .fields a b, .fields l =>
    a ≤ b ∧ b ≤ f.sub.length ∧ List.Forall₂ (AtomOk f) ((f.sub.drop a).take (b - a)) (l.map .named)
  | _, _ => False

/-- The numbering of temporaries and strings. -/
structure Inv (f : Fn σ X E) : Prop where
  tmp : ∃ a, f.params.filterMap Par.tmp = List.range' 1 a ∧ a < f.nbTmps
  tmpSub : ∃ a, f.sub.filterMap Par.tmp = List.range' 1 a ∧ a < f.nbTmps
  str : ∃ a, f.params.filterMap Par.strIdx = List.range' 0 a
  strSub : ∃ a, f.sub.filterMap Par.strIdx = List.range' 0 a

/-- `f'` comes from `f` by adding things. -/
structure Ext (f f' : Fn σ X E) : Prop where
  params : f.params <+: f'.params
  sub : f.sub <+: f'.sub
  consts : f.consts <+: f'.consts
  strs : f.strs <+: f'.strs
  nparams : f'.nparams = f.nparams

theorem Ext.refl (f : Fn σ X E) : Ext f f := ⟨List.prefix_rfl, List.prefix_rfl, List.prefix_rfl, List.prefix_rfl, rfl⟩

theorem Ext.trans {f g h : Fn σ X E} (a : Ext f g) (b : Ext g h) : Ext f h :=
  ⟨a.params.trans b.params, a.sub.trans b.sub, a.consts.trans b.consts, a.strs.trans b.strs, b.nparams.trans a.nparams⟩

theorem getElem?_prefix {α : Type} {l l' : List α} (h : l <+: l') {i : Nat} {x : α} (e : l[i]? = some x) :
    l'[i]? = some x := by
  obtain ⟨t, rfl⟩ := h
  rw [List.getElem?_append_left (List.getElem?_eq_some_iff.1 e).1]
  exact e

theorem AtomOk.mono {f f' : Fn σ X E} (h1 : f.consts <+: f'.consts) (h2 : f.strs <+: f'.strs) {p : Par X E}
    {a : Atom X E} (k : AtomOk f p a) : AtomOk f' p a := by
  unfold AtomOk at k ⊢
  split
  · exact getElem?_prefix h1 k
  · exact k
  · exact k
  · exact k
  · exact getElem?_prefix h2 k
  · simp_all

theorem slice_prefix {α : Type} {l l' : List α} (h : l <+: l') {a b : Nat} (hab : a ≤ b) (hb : b ≤ l.length) :
    (l'.drop a).take (b - a) = (l.drop a).take (b - a) := by
  obtain ⟨t, rfl⟩ := h
  rw [List.drop_append_of_le_length (by omega), List.take_append_of_le_length (by simp; omega)]

theorem SrcOk.mono {f f' : Fn σ X E} (h : Ext f f') {p : Par X E} {a : Src X E} (k : SrcOk f p a) : SrcOk f' p a := by
  unfold SrcOk at k ⊢
  split
  · exact k.mono h.consts h.strs
  · obtain ⟨k1, k2, k3⟩ := k
    refine ⟨k1, Nat.le_trans k2 h.sub.length_le, ?_⟩
    rw [slice_prefix h.sub k1 k2]
    exact k3.imp fun _ _ => AtomOk.mono h.consts h.strs
  · obtain ⟨k1, k2, k3⟩ := k
    refine ⟨k1, Nat.le_trans k2 h.sub.length_le, ?_⟩
    rw [slice_prefix h.sub k1 k2]
    exact k3.imp fun _ _ => AtomOk.mono h.consts h.strs
  · simp_all

theorem refresh_id : ∀ (l : List (Par X E)) (k n : Nat), l.filterMap Par.strIdx = List.range' k n → refresh k l = l
  | [], _, _, _ => rfl
  | p :: l, k, n, h => by
    cases p with
    | str i =>
      simp only [List.filterMap_cons, Par.strIdx] at h
      cases n with
      | zero => simp at h
      | succ n =>
        rw [List.range'_succ] at h
        simp only [List.cons.injEq] at h
        obtain ⟨rfl, h⟩ := h
        rw [refresh, refresh_id l (i + 1) n h]
    | _ =>
      simp only [List.filterMap_cons, Par.strIdx] at h
      simp only [refresh]
      rw [refresh_id l k n h]

/-- What loading one argument that is no list does. -/
structure AtomStep (f f' : Fn σ X E) (a : Atom X E) : Prop where
  par : ∃ p, f'.params = f.params ++ [p] ∧ AtomOk f' p a
  sub : f'.sub = f.sub
  consts : f.consts <+: f'.consts
  strs : f.strs <+: f'.strs
  nparams : f'.nparams = f.nparams
  prims : f'.prims = f.prims

theorem range'_snoc (s n : Nat) : List.range' s n ++ [s + n] = List.range' s (n + 1) := by
  rw [List.range'_concat]
  simp

theorem loadAtom_ok {f f' : Fn σ X E} (h : Inv f) {a : Atom X E} (e : f.loadAtom a = some f') :
    Inv f' ∧ AtomStep f f' a := by
  obtain ⟨⟨n1, t1, t2⟩, ⟨n2, t3, t4⟩, ⟨n3, t5⟩, ⟨n4, t6⟩⟩ := h
  cases a with
  | hex v =>
    simp only [Fn.loadAtom, Option.some.injEq] at e
    subst e
    refine ⟨⟨⟨n1, ?_, t2⟩, ⟨n2, t3, t4⟩, ⟨n3, ?_⟩, ⟨n4, t6⟩⟩, ⟨⟨_, rfl, ?_⟩, rfl, List.prefix_append _ _, List.prefix_rfl, rfl, rfl⟩⟩
    · simp [Fn.pushConst, Fn.push, Par.tmp, t1]
    · simp [Fn.pushConst, Fn.push, Par.strIdx, t5]
    · simp [AtomOk, Fn.pushConst, Fn.push]
  | data i =>
    simp only [Fn.loadAtom] at e
    split at e
    · cases e
      refine ⟨⟨⟨n1, ?_, t2⟩, ⟨n2, t3, t4⟩, ⟨n3, ?_⟩, ⟨n4, t6⟩⟩, ⟨⟨_, rfl, rfl⟩, rfl, List.prefix_rfl, List.prefix_rfl, rfl, rfl⟩⟩
      · simp [Fn.push, Par.tmp, t1]
      · simp [Fn.push, Par.strIdx, t5]
    · cases e
  | expr x =>
    simp only [Fn.loadAtom, Fn.pushExpr] at e
    split at e
    · cases e
      rename_i hle
      rw [t1, List.length_range'] at hle
      refine ⟨⟨⟨n1 + 1, ?_, ?_⟩, ⟨n2, t3, ?_⟩, ⟨n3, ?_⟩, ⟨n4, t6⟩⟩, ⟨⟨_, rfl, rfl⟩, rfl, List.prefix_rfl, List.prefix_rfl, rfl, rfl⟩⟩
      · simp only [Fn.push, List.filterMap_append, List.filterMap_cons, List.filterMap_nil, Par.tmp, t1, List.length_range']
        exact range'_snoc 1 n1
      · simp only [Fn.push, t1, List.length_range']
        split <;> omega
      · simp only [Fn.push, t1, List.length_range']
        split <;> omega
      · simp [Fn.push, Par.strIdx, t5]
    · cases e
  | named x =>
    simp only [Fn.loadAtom, Option.some.injEq] at e
    subst e
    refine ⟨⟨⟨n1, ?_, t2⟩, ⟨n2, t3, t4⟩, ⟨n3, ?_⟩, ⟨n4, t6⟩⟩, ⟨⟨_, rfl, rfl⟩, rfl, List.prefix_rfl, List.prefix_rfl, rfl, rfl⟩⟩
    · simp [Fn.push, Par.tmp, t1]
    · simp [Fn.push, Par.strIdx, t5]
  | str s =>
    simp only [Fn.loadAtom, Fn.pushStr] at e
    split at e
    · cases e
      rename_i hlen
      rw [t5, List.length_range'] at hlen
      rw [refresh_id _ _ _ t5, hlen]
      refine ⟨⟨⟨n1, ?_, t2⟩, ⟨n2, t3, t4⟩, ⟨n3 + 1, ?_⟩, ⟨n4, t6⟩⟩, ⟨⟨_, rfl, ?_⟩, rfl, List.prefix_rfl, List.prefix_append _ _, rfl, rfl⟩⟩
      · simp [Fn.push, Par.tmp, t1]
      · simp only [Fn.push, List.filterMap_append, List.filterMap_cons, List.filterMap_nil, Par.strIdx, t5]
        have := range'_snoc 0 n3
        rwa [Nat.zero_add] at this
      · simp [AtomOk, Fn.push, ← hlen]
    · cases e

/-- What loading the elements of a list does. -/
theorem loadAtoms_ok : ∀ (l : List (Atom X E)) {f f' : Fn σ X E}, Inv f → f.loadAtoms l = some f' →
    Inv f' ∧ (∃ ps, f'.params = f.params ++ ps ∧ List.Forall₂ (AtomOk f') ps l) ∧ f'.sub = f.sub ∧
      f.consts <+: f'.consts ∧ f.strs <+: f'.strs ∧ f'.nparams = f.nparams ∧ f'.prims = f.prims
  | [], f, f', h, e => by
    simp only [Fn.loadAtoms, Option.some.injEq] at e
    subst e
    exact ⟨h, ⟨[], by simp, .nil⟩, rfl, List.prefix_rfl, List.prefix_rfl, rfl, rfl⟩
  | a :: l, f, f', h, e => by
    simp only [Fn.loadAtoms, Option.bind_eq_bind] at e
    obtain ⟨g, e1, e2⟩ := Option.bind_eq_some_iff.1 e
    obtain ⟨h1, ⟨p, k1, k2⟩, k3, k4, k5, k6, k7⟩ := loadAtom_ok h e1
    obtain ⟨h2, ⟨ps, j1, j2⟩, j3, j4, j5, j6, j7⟩ := loadAtoms_ok l h1 e2
    refine ⟨h2, ⟨p :: ps, by rw [j1, k1]; simp, .cons (k2.mono j4 j5) j2⟩, j3.trans k3, k4.trans j4, k5.trans j5,
      j6.trans k6, j7.trans k7⟩

/-- What loading an argument does. -/
structure SrcStep (f f' : Fn σ X E) (a : Src X E) : Prop where
  par : ∃ p, f'.params = f.params ++ [p] ∧ SrcOk f' p a
  ext : Ext f f'
  prims : f'.prims = f.prims

theorem Inv.swap {f : Fn σ X E} (h : Inv f) : Inv f.swap := ⟨h.tmpSub, h.tmp, h.strSub, h.str⟩

theorem Inv.push {f : Fn σ X E} (h : Inv f) {p : Par X E} (h1 : p.tmp = none) (h2 : p.strIdx = none) : Inv (f.push p) := by
  obtain ⟨⟨n1, t1, t2⟩, k2, ⟨n3, t5⟩, k4⟩ := h
  refine ⟨⟨n1, ?_, t2⟩, k2, ⟨n3, ?_⟩, k4⟩
  · simp [Fn.push, h1, t1]
  · simp [Fn.push, h2, t5]

theorem loadSrc_ok {f f' : Fn σ X E} (h : Inv f) {a : Src X E} (e : f.loadSrc a = some f') :
    Inv f' ∧ SrcStep f f' a := by
  cases a with
  | atom a =>
    obtain ⟨h1, ⟨p, k1, k2⟩, k3, k4, k5, k6, k7⟩ := loadAtom_ok h e
    exact ⟨h1, ⟨⟨p, k1, k2⟩, ⟨by rw [k1]; exact List.prefix_append _ _, k3 ▸ List.prefix_rfl, k4, k5, k6⟩, k7⟩⟩
  | vec l =>
    simp only [Fn.loadSrc, Option.bind_eq_bind] at e
    obtain ⟨g, e1, e2⟩ := Option.bind_eq_some_iff.1 e
    obtain ⟨h1, ⟨ps, k1, k2⟩, k3, k4, k5, k6, k7⟩ := loadAtoms_ok l (h.push rfl rfl).swap e1
    have k3' : g.sub = f.params ++ [.vec f.sub.length f.sub.length] := k3
    have k1' : g.params = f.sub ++ ps := k1
    have hlast : g.swap.params.getLast? = some (.vec f.sub.length f.sub.length) := by
      simp only [Fn.swap, k3']; simp
    simp only [Fn.endVec, hlast, Option.some.injEq] at e2
    subst e2
    obtain ⟨⟨n1, t1, t2⟩, ⟨n2, t3, t4⟩, ⟨n3, t5⟩, ⟨n4, t6⟩⟩ := h1
    rw [k3'] at t3 t6
    refine ⟨⟨⟨n2, ?_, t4⟩, ⟨n1, t1, t2⟩, ⟨n4, ?_⟩, ⟨n3, t5⟩⟩,
      ⟨⟨.vec f.sub.length g.params.length, ?_, ?_⟩, ⟨?_, ?_, k4, k5, k6⟩, k7⟩⟩
    · simpa [Fn.swap, k3', Par.tmp, List.filterMap_cons] using t3
    · simpa [Fn.swap, k3', Par.strIdx, List.filterMap_cons] using t6
    · simp [Fn.swap, k3']
    · simp only [SrcOk, Fn.swap, k1', List.length_append]
      refine ⟨by omega, Nat.le_refl _, ?_⟩
      rw [show f.sub.length + ps.length - f.sub.length = ps.length by omega, List.drop_left, List.take_length]
      exact k2
    · simp [Fn.swap, k3']
    · simp only [Fn.swap, k1']; exact List.prefix_append _ _
  | fields l =>
    simp only [Fn.loadSrc, Option.bind_eq_bind] at e
    obtain ⟨g, e1, e2⟩ := Option.bind_eq_some_iff.1 e
    obtain ⟨h1, ⟨ps, k1, k2⟩, k3, k4, k5, k6, k7⟩ := loadAtoms_ok (l.map .named) (h.push rfl rfl).swap e1
    have k3' : g.sub = f.params ++ [.fields f.sub.length f.sub.length] := k3
    have k1' : g.params = f.sub ++ ps := k1
    have hlast : g.swap.params.getLast? = some (.fields f.sub.length f.sub.length) := by
      simp only [Fn.swap, k3']; simp
    simp only [Fn.endFields, hlast, Option.some.injEq] at e2
    subst e2
    obtain ⟨⟨n1, t1, t2⟩, ⟨n2, t3, t4⟩, ⟨n3, t5⟩, ⟨n4, t6⟩⟩ := h1
    rw [k3'] at t3 t6
    refine ⟨⟨⟨n2, ?_, t4⟩, ⟨n1, t1, t2⟩, ⟨n4, ?_⟩, ⟨n3, t5⟩⟩,
      ⟨⟨.fields f.sub.length g.params.length, ?_, ?_⟩, ⟨?_, ?_, k4, k5, k6⟩, k7⟩⟩
    · simpa [Fn.swap, k3', Par.tmp, List.filterMap_cons] using t3
    · simpa [Fn.swap, k3', Par.strIdx, List.filterMap_cons] using t6
    · simp [Fn.swap, k3']
    · simp only [SrcOk, Fn.swap, k1', List.length_append]
      refine ⟨by omega, Nat.le_refl _, ?_⟩
      rw [show f.sub.length + ps.length - f.sub.length = ps.length by omega, List.drop_left, List.take_length]
      exact k2
    · simp [Fn.swap, k3']
    · simp only [Fn.swap, k1']; exact List.prefix_append _ _

theorem loadSrcs_ok : ∀ (l : List (Src X E)) {f f' : Fn σ X E}, Inv f → f.loadSrcs l = some f' →
    Inv f' ∧ (∃ ps, f'.params = f.params ++ ps ∧ List.Forall₂ (SrcOk f') ps l) ∧ Ext f f' ∧ f'.prims = f.prims
  | [], f, f', h, e => by
    simp only [Fn.loadSrcs, Option.some.injEq] at e
    subst e
    exact ⟨h, ⟨[], by simp, .nil⟩, .refl _, rfl⟩
  | a :: l, f, f', h, e => by
    simp only [Fn.loadSrcs, Option.bind_eq_bind] at e
    obtain ⟨g, e1, e2⟩ := Option.bind_eq_some_iff.1 e
    obtain ⟨h1, ⟨p, k1, k2⟩, k3, k4⟩ := loadSrc_ok h e1
    obtain ⟨h2, ⟨ps, j1, j2⟩, j3, j4⟩ := loadSrcs_ok l h1 e2
    exact ⟨h2, ⟨p :: ps, by rw [j1, k1]; simp, .cons (k2.mono j3) j2⟩, k3.trans j3, j4.trans k4⟩

/-- The offset for the next call. -/
def nextOff (l : List (Prim σ X × Nat)) : Nat :=
  match l.getLast? with
  | none => 0
  | some (q, off) => off + q.nparams

/-- A call is where it should be. -/
def CallOk (f : Fn σ X E) (x : Prim σ X × Nat) (c : Call σ X E) : Prop :=
  x.1 = c.prim ∧ c.args.length = c.prim.nparams ∧ x.2 + c.prim.nparams ≤ f.params.length ∧
    List.Forall₂ (SrcOk f) ((f.params.drop x.2).take c.prim.nparams) c.args

theorem CallOk.mono {f f' : Fn σ X E} (h : Ext f f') {x : Prim σ X × Nat} {c : Call σ X E} (k : CallOk f x c) :
    CallOk f' x c := by
  obtain ⟨k1, k2, k3, k4⟩ := k
  refine ⟨k1, k2, Nat.le_trans k3 h.params.length_le, ?_⟩
  have := slice_prefix h.params (Nat.le_add_right x.2 c.prim.nparams) k3
  rw [Nat.add_sub_cancel_left] at this
  rw [this]
  exact k4.imp fun _ _ => SrcOk.mono h

/-- All calls are where they should be. -/
structure Loaded (f : Fn σ X E) (cs : List (Call σ X E)) : Prop where
  inv : Inv f
  calls : List.Forall₂ (CallOk f) f.prims cs
  next : nextOff f.prims = f.params.length

theorem loadCall_ok {f f' : Fn σ X E} {cs : List (Call σ X E)} (h : Loaded f cs) {c : Call σ X E}
    (e : f.loadCall c = some f') : Loaded f' (cs ++ [c]) ∧ Ext f f' := by
  simp only [Fn.loadCall] at e
  split at e
  · rename_i hlen
    have hinv : Inv (f.pushPrim c.prim) := ⟨h.inv.tmp, h.inv.tmpSub, h.inv.str, h.inv.strSub⟩
    obtain ⟨h1, ⟨ps, j1, j2⟩, j3, j4⟩ := loadSrcs_ok c.args hinv e
    have hp : f'.prims = f.prims ++ [(c.prim, f.params.length)] := by
      rw [j4]
      simp only [Fn.pushPrim]
      rw [← h.next, nextOff]
      rfl
    have j1' : f'.params = f.params ++ ps := j1
    have hext : Ext f f' := ⟨j3.params, j3.sub, j3.consts, j3.strs, j3.nparams⟩
    have hl := j2.length_eq
    refine ⟨⟨h1, ?_, ?_⟩, hext⟩
    · rw [hp]
      refine List.rel_append (h.calls.imp fun _ _ => CallOk.mono hext) (.cons ⟨rfl, hlen, ?_, ?_⟩ .nil)
      · rw [j1', List.length_append]; simp only; omega
      · rw [j1', List.drop_left, ← hlen, ← hl, List.take_length]
        exact j2
    · rw [hp, j1']
      simp [nextOff, ← hlen, ← hl]
  · cases e

theorem load_ok : ∀ (cs : List (Call σ X E)) {f f' : Fn σ X E} {done : List (Call σ X E)}, Loaded f done →
    f.load cs = some f' → Loaded f' (done ++ cs)
  | [], f, f', done, h, e => by
    simp only [Fn.load, Option.some.injEq] at e
    subst e
    simpa using h
  | c :: cs, f, f', done, h, e => by
    simp only [Fn.load, Option.bind_eq_bind] at e
    obtain ⟨g, e1, e2⟩ := Option.bind_eq_some_iff.1 e
    have := load_ok cs (loadCall_ok h e1).1 e2
    simpa using this

theorem loaded_init {n k : Nat} (hk : 1 ≤ k) : Loaded (Fn.init n k : Fn σ X E) [] :=
  ⟨⟨⟨0, rfl, hk⟩, ⟨0, rfl, hk⟩, ⟨0, rfl⟩, ⟨0, rfl⟩⟩, .nil, rfl⟩

/-! ## Numbers of expressions -/

/-- How many parameters use temporaries. -/
def Fn.cnt (f : Fn σ X E) : Nat := (f.params.filterMap Par.tmp).length + (f.sub.filterMap Par.tmp).length

theorem swap_cnt (f : Fn σ X E) : f.swap.cnt = f.cnt := Nat.add_comm _ _

/-- 1 for an expression. -/
def Atom.one : Atom X E → Nat
  | .expr _ => 1
  | _ => 0

theorem refresh_tmp : ∀ (l : List (Par X E)) (k : Nat), (refresh k l).filterMap Par.tmp = l.filterMap Par.tmp
  | [], _ => rfl
  | p :: l, k => by
    cases p with
    | str i => simp [refresh, List.filterMap_cons, Par.tmp, refresh_tmp l]
    | _ => simp [refresh, List.filterMap_cons, Par.tmp, refresh_tmp l]

theorem loadAtom_cnt {f f' : Fn σ X E} {a : Atom X E} (e : f.loadAtom a = some f') : f'.cnt = f.cnt + a.one := by
  cases a with
  | hex v =>
    simp only [Fn.loadAtom, Option.some.injEq] at e
    subst e
    simp [Fn.cnt, Fn.pushConst, Fn.push, List.filterMap_cons, Par.tmp, Atom.one]
  | data i =>
    simp only [Fn.loadAtom] at e
    split at e
    · cases e
      simp [Fn.cnt, Fn.push, List.filterMap_cons, Par.tmp, Atom.one]
    · cases e
  | expr x =>
    simp only [Fn.loadAtom, Fn.pushExpr] at e
    split at e
    · cases e
      simp [Fn.cnt, Fn.push, List.filterMap_cons, Par.tmp, Atom.one]
      omega
    · cases e
  | named x =>
    simp only [Fn.loadAtom, Option.some.injEq] at e
    subst e
    simp [Fn.cnt, Fn.push, List.filterMap_cons, Par.tmp, Atom.one]
  | str s =>
    simp only [Fn.loadAtom, Fn.pushStr] at e
    split at e
    · cases e
      simp [Fn.cnt, Fn.push, List.filterMap_cons, Par.tmp, Atom.one, refresh_tmp]
    · cases e

theorem loadAtoms_cnt : ∀ (l : List (Atom X E)) {f f' : Fn σ X E}, f.loadAtoms l = some f' →
    f'.cnt = f.cnt + (l.map Atom.one).sum
  | [], f, f', e => by cases e; rfl
  | a :: l, f, f', e => by
    simp only [Fn.loadAtoms, Option.bind_eq_bind] at e
    obtain ⟨g, e1, e2⟩ := Option.bind_eq_some_iff.1 e
    rw [loadAtoms_cnt l e2, loadAtom_cnt e1, List.map_cons, List.sum_cons, Nat.add_assoc]

theorem one_sum (l : List (Atom X E)) : (l.map Atom.one).sum = (Src.vec l).exprs := by
  induction l with
  | nil => rfl
  | cons a l ih =>
    rw [List.map_cons, List.sum_cons, ih]
    cases a <;> simp [Src.exprs, Atom.one, Nat.add_comm]

theorem one_named (l : List X) : ((l.map (Atom.named (E := E))).map Atom.one).sum = 0 := by
  induction l with
  | nil => rfl
  | cons a l ih => simp_all [Atom.one]

theorem push_cnt {f : Fn σ X E} {p : Par X E} (h : p.tmp = none) : (f.push p).cnt = f.cnt := by
  simp [Fn.cnt, Fn.push, h]

theorem setLast_cnt {f : Fn σ X E} {p q : Par X E} (h : f.params.getLast? = some p) (h1 : p.tmp = none)
    (h2 : q.tmp = none) : ({ f with params := f.params.dropLast ++ [q] } : Fn σ X E).cnt = f.cnt := by
  have : f.params = f.params.dropLast ++ [p] := by
    have := List.dropLast_append_getLast? p h
    exact this.symm
  simp only [Fn.cnt]
  rw [this]
  simp [h1, h2]

theorem loadSrc_cnt {f f' : Fn σ X E} {a : Src X E} (e : f.loadSrc a = some f') : f'.cnt = f.cnt + a.exprs := by
  cases a with
  | atom a =>
    rw [loadAtom_cnt e]
    cases a <;> rfl
  | vec l =>
    simp only [Fn.loadSrc, Option.bind_eq_bind] at e
    obtain ⟨g, e1, e2⟩ := Option.bind_eq_some_iff.1 e
    have h1 := loadAtoms_cnt l e1
    rw [Fn.startVec, swap_cnt, push_cnt rfl, one_sum] at h1
    simp only [Fn.endVec] at e2
    split at e2
    · rename_i h2
      cases e2
      rw [setLast_cnt h2 rfl rfl, swap_cnt, h1]
    · cases e2
  | fields l =>
    simp only [Fn.loadSrc, Option.bind_eq_bind] at e
    obtain ⟨g, e1, e2⟩ := Option.bind_eq_some_iff.1 e
    have h1 := loadAtoms_cnt _ e1
    rw [Fn.startFields, swap_cnt, push_cnt rfl, one_named] at h1
    simp only [Fn.endFields] at e2
    split at e2
    · rename_i h2
      cases e2
      rw [setLast_cnt h2 rfl rfl, swap_cnt, h1]
      rfl
    · cases e2

theorem loadSrcs_cnt : ∀ (l : List (Src X E)) {f f' : Fn σ X E}, f.loadSrcs l = some f' →
    f'.cnt = f.cnt + (l.map Src.exprs).sum
  | [], f, f', e => by cases e; rfl
  | a :: l, f, f', e => by
    simp only [Fn.loadSrcs, Option.bind_eq_bind] at e
    obtain ⟨g, e1, e2⟩ := Option.bind_eq_some_iff.1 e
    rw [loadSrcs_cnt l e2, loadSrc_cnt e1, List.map_cons, List.sum_cons, Nat.add_assoc]

theorem load_cnt : ∀ (l : List (Call σ X E)) {f f' : Fn σ X E}, f.load l = some f' →
    f'.cnt = f.cnt + (l.map fun c => (c.args.map Src.exprs).sum).sum
  | [], f, f', e => by cases e; rfl
  | c :: l, f, f', e => by
    simp only [Fn.load, Option.bind_eq_bind] at e
    obtain ⟨g, e1, e2⟩ := Option.bind_eq_some_iff.1 e
    simp only [Fn.loadCall] at e1
    split at e1
    · rw [load_cnt l e2, loadSrcs_cnt _ e1, List.map_cons, List.sum_cons, ← Nat.add_assoc]
      rfl
    · cases e1

end Bm.Act
