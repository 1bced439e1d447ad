import Verif.Lemmas.Action

/-!
# Actions that fit are loaded
-/

namespace Bm.Act
variable {σ X E : Type}

/-- All strings belong to parameters. -/
def StrOk (f : Fn σ X E) : Prop := f.strs.length = (f.params.filterMap Par.strIdx).length

theorem loadAtom_some {f : Fn σ X E} (h : Inv f) {a : Atom X E} (h1 : ∀ i, a = .data i → i < f.nparams)
    (h2 : ∀ t, a = .str t → StrOk f) : ∃ f', f.loadAtom a = some f' ∧ (StrOk f → StrOk f') ∧
      ((∀ t, a ≠ .str t) → f'.strs = f.strs) := by
  cases a with
  | hex v => exact ⟨_, rfl, fun h => by simpa [StrOk, Fn.pushConst, Fn.push, Par.strIdx, List.filterMap_cons] using h, fun _ => rfl⟩
  | data i =>
    exact ⟨_, if_pos (h1 i rfl), fun h => by simpa [StrOk, Fn.push, Par.strIdx, List.filterMap_cons] using h, fun _ => rfl⟩
  | expr e =>
    obtain ⟨n1, t1, t2⟩ := h.tmp
    refine ⟨_, if_pos (by rw [t1, List.length_range']; omega), fun h => ?_, fun _ => rfl⟩
    simpa [StrOk, Fn.push, Par.strIdx, List.filterMap_cons] using h
  | named x => exact ⟨_, rfl, fun h => by simpa [StrOk, Fn.push, Par.strIdx, List.filterMap_cons] using h, fun _ => rfl⟩
  | str t =>
    obtain ⟨n3, t5⟩ := h.str
    refine ⟨_, if_pos (h2 t rfl), fun h => ?_, fun k => absurd rfl (k t)⟩
    rw [refresh_id _ _ _ t5]
    simpa [StrOk, Fn.push, Par.strIdx, List.filterMap_cons] using h

theorem loadAtoms_some : ∀ (l : List (Atom X E)) {f : Fn σ X E}, Inv f →
    (∀ a ∈ l, (∀ i, a = .data i → i < f.nparams) ∧ ∀ t, a ≠ .str t) → ∃ f', f.loadAtoms l = some f' ∧ f'.strs = f.strs
  | [], f, _, _ => ⟨f, rfl, rfl⟩
  | a :: l, f, h, hl => by
    obtain ⟨k1, k2⟩ := hl a (List.mem_cons_self ..)
    obtain ⟨g, e, -, hs⟩ := loadAtom_some h k1 fun t ht => absurd ht (k2 t)
    obtain ⟨h1, hst⟩ := loadAtom_ok h e
    obtain ⟨f', e', hs'⟩ := loadAtoms_some l h1 fun b hb => by rw [hst.nparams]; exact hl b (List.mem_cons_of_mem _ hb)
    exact ⟨f', by simp only [Fn.loadAtoms, e, Option.bind_eq_bind, Option.bind_some, e'], hs'.trans (hs k2)⟩

theorem loadSrc_some {f : Fn σ X E} (h : Inv f) (hs : StrOk f) {a : Src X E} (ha : a.Fits f.nparams) :
    ∃ f', f.loadSrc a = some f' ∧ StrOk f' := by
  cases a with
  | atom a =>
    obtain ⟨f', e, k, -⟩ := loadAtom_some h (a := a) (by rintro i rfl; exact ha) fun _ _ => hs
    exact ⟨f', e, k hs⟩
  | vec l =>
    have h' := (h.push (p := .vec f.sub.length f.sub.length) rfl rfl).swap
    obtain ⟨g, e, k⟩ := loadAtoms_some l h' ha
    obtain ⟨-, -, k3, -⟩ := loadAtoms_ok l h' e
    have k3' : g.sub = f.params ++ [.vec f.sub.length f.sub.length] := k3
    have hlast : g.swap.params.getLast? = some (.vec f.sub.length f.sub.length) := by simp only [Fn.swap, k3']; simp
    have e' : f.startVec.loadAtoms l = some g := e
    have e2 : f.loadSrc (.vec l) = some { g.swap with params := g.swap.params.dropLast ++ [.vec f.sub.length g.swap.sub.length] } := by
      simp only [Fn.loadSrc, e', Option.bind_eq_bind, Option.bind_some, Fn.endVec, hlast]
    refine ⟨_, e2, ?_⟩
    have k' : g.strs = f.strs := k
    simpa [StrOk, Fn.swap, k3', k', Par.strIdx, List.filterMap_cons] using hs
  | fields l =>
    have h' := (h.push (p := .fields f.sub.length f.sub.length) rfl rfl).swap
    obtain ⟨g, e, k⟩ := loadAtoms_some (l.map .named) h' (by
      intro a ha
      obtain ⟨x, -, rfl⟩ := List.mem_map.1 ha
      exact ⟨nofun, nofun⟩)
    obtain ⟨-, -, k3, -⟩ := loadAtoms_ok (l.map .named) h' e
    have k3' : g.sub = f.params ++ [.fields f.sub.length f.sub.length] := k3
    have hlast : g.swap.params.getLast? = some (.fields f.sub.length f.sub.length) := by simp only [Fn.swap, k3']; simp
    have e' : f.startFields.loadAtoms (l.map .named) = some g := e
    have e2 : f.loadSrc (.fields l) = some { g.swap with params := g.swap.params.dropLast ++ [.fields f.sub.length g.swap.sub.length] } := by
      simp only [Fn.loadSrc, e', Option.bind_eq_bind, Option.bind_some, Fn.endFields, hlast]
    refine ⟨_, e2, ?_⟩
    have k' : g.strs = f.strs := k
    simpa [StrOk, Fn.swap, k3', k', Par.strIdx, List.filterMap_cons] using hs

theorem loadSrcs_some : ∀ (l : List (Src X E)) {f : Fn σ X E}, Inv f → StrOk f → (∀ a ∈ l, a.Fits f.nparams) →
    ∃ f', f.loadSrcs l = some f' ∧ StrOk f'
  | [], f, _, hs, _ => ⟨f, rfl, hs⟩
  | a :: l, f, h, hs, hl => by
    obtain ⟨g, e, hg⟩ := loadSrc_some h hs (hl a (List.mem_cons_self ..))
    obtain ⟨h1, hst⟩ := loadSrc_ok h e
    obtain ⟨f', e', hf⟩ := loadSrcs_some l h1 hg fun b hb => by
      rw [hst.ext.nparams]; exact hl b (List.mem_cons_of_mem _ hb)
    exact ⟨f', by simp only [Fn.loadSrcs, e, Option.bind_eq_bind, Option.bind_some, e'], hf⟩

theorem load_some : ∀ (l : List (Call σ X E)) {f : Fn σ X E}, Inv f → StrOk f → (∀ c ∈ l, c.Fits f.nparams) →
    ∃ f', f.load l = some f'
  | [], f, _, _, _ => ⟨f, rfl⟩
  | c :: l, f, h, hs, hl => by
    obtain ⟨k1, k2⟩ := hl c (List.mem_cons_self ..)
    have hp : Inv (f.pushPrim c.prim) := ⟨h.tmp, h.tmpSub, h.str, h.strSub⟩
    obtain ⟨g, e, hg⟩ := loadSrcs_some c.args hp hs k2
    obtain ⟨h1, -, hext, -⟩ := loadSrcs_ok c.args hp e
    have hn : g.nparams = f.nparams := hext.nparams
    obtain ⟨f', e'⟩ := load_some l h1 hg fun b hb => by rw [hn]; exact hl b (List.mem_cons_of_mem _ hb)
    exact ⟨f', by simp only [Fn.load, Fn.loadCall, if_pos k1, e, Option.bind_eq_bind, Option.bind_some, e']⟩

end Bm.Act
