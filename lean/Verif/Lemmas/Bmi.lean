import Verif.Model.Bmi

/-! # Lemmas about the port manager -/

namespace Bm.Bmi
open Bm.Bmi.Spec

/-! ## The table -/

/-- The table is sorted and fits. -/
structure Tab (m : Mgr) : Prop where
  len : m.ports.length = m.max
  cnt : m.count ≤ m.max
  sorted : ∀ i j x y, i < j → j < m.count → m.ports[i]? = some x → m.ports[j]? = some y → x.port < y.port

theorem search_ok {ports : List Slot} {p : Int} {c : Nat} (hc : c ≤ ports.length)
    (hs : ∀ i j x y, i < j → j < c → ports[i]? = some x → ports[j]? = some y → x.port < y.port) :
    ∀ a b, a ≤ b → b ≤ c → (∀ i x, i < a → ports[i]? = some x → x.port < p) →
      (∀ i x, b ≤ i → i < c → ports[i]? = some x → p < x.port) →
      ∃ r, search ports p a b = some r ∧
        (r.2 = true → r.1 < c ∧ ∃ x, ports[r.1]? = some x ∧ x.port = p) ∧
        (r.2 = false → r.1 ≤ c ∧ (∀ i x, i < r.1 → ports[i]? = some x → x.port < p) ∧
          ∀ i x, r.1 ≤ i → i < c → ports[i]? = some x → p < x.port) := by
  intro a b
  induction hn : b - a using Nat.strongRecOn generalizing a b with
  | _ n ih =>
    intro hab hbc hlo hhi
    rw [search]
    by_cases h : a < b
    · rw [if_pos h]
      have hidx : a + (b - a) / 2 < b := by omega
      generalize hk : a + (b - a) / 2 = k at hidx
      have hak : a ≤ k := by omega
      have hkl : k < ports.length := by omega
      rw [List.getElem?_eq_getElem hkl]
      simp only []
      have hx : ports[k]? = some ports[k] := List.getElem?_eq_getElem hkl
      generalize ports[k] = x at hx
      by_cases h1 : p < x.port
      · rw [if_pos h1]
        refine ih (k - a) (by omega) a k rfl hak (by omega) hlo ?_
        intro i y hi hic hy
        by_cases hik : i = k
        · subst hik; rw [hx] at hy; cases hy; exact h1
        · have := hs k i x y (by omega) hic hx hy
          omega
      · rw [if_neg h1]
        by_cases h2 : p > x.port
        · rw [if_pos h2]
          refine ih (b - (k + 1)) (by omega) (k + 1) b rfl (by omega) hbc ?_ hhi
          intro i y hi hy
          by_cases hik : i = k
          · subst hik; rw [hx] at hy; cases hy; exact h2
          · have := hs i k y x (by omega) (by omega) hy hx
            omega
        · rw [if_neg h2]
          exact ⟨(k, true), rfl, fun _ => ⟨(by simp only []; omega), x, hx, (by omega)⟩, fun h => (by cases h)⟩
    · rw [if_neg h]
      refine ⟨(a, false), rfl, fun h => (by cases h), fun _ => ⟨(by simp only []; omega), hlo, ?_⟩⟩
      intro i x hi hic hx
      exact hhi i x (by simp only [] at hi; omega) hic hx

/-- A port is found exactly if it is there. -/
theorem getPort_ok {m : Mgr} (h : Tab m) (p : Int) :
    (∃ i x, m.getPort p = some (some i) ∧ i < m.count ∧ m.ports[i]? = some x ∧ x.port = p) ∨
    (m.getPort p = some none ∧ ∀ i x, i < m.count → m.ports[i]? = some x → x.port ≠ p) := by
  obtain ⟨⟨k, f⟩, h1, h2, h3⟩ := search_ok (p := p) (c := m.count) (by have := h.len; have := h.cnt; omega) h.sorted 0 m.count
    (by omega) (by omega) (by intro i x hi; omega) (by intro i x hi hj; omega)
  rw [Mgr.getPort, h1]
  cases f
  · right
    obtain ⟨h4, h5, h6⟩ := h3 rfl
    refine ⟨rfl, fun i x hi hx => ?_⟩
    by_cases hik : i < k
    · have := h5 i x hik hx; omega
    · have := h6 i x (by simp only []; omega) hi hx; omega
  · left
    obtain ⟨h4, x, h5, h6⟩ := h2 rfl
    exact ⟨k, x, rfl, h4, h5, h6⟩

theorem memmove_ok {l : List Slot} {dst src n : Nat} (h1 : dst + n ≤ l.length) (h2 : src + n ≤ l.length) :
    ∃ l', memmove l dst src n = some l' ∧ l'.length = l.length ∧
      ∀ i, l'[i]? = if i < dst then l[i]? else if i < dst + n then l[src + (i - dst)]? else l[i]? := by
  refine ⟨_, by rw [memmove, if_pos ⟨h1, h2⟩], ?_, ?_⟩
  · simp only [List.length_append, List.length_take, List.length_drop]; omega
  · intro i
    rw [List.getElem?_append]
    simp only [List.length_take]
    rw [Nat.min_eq_left (by omega)]
    by_cases h : i < dst
    · rw [if_pos h, if_pos h, List.getElem?_take, if_pos h]
    · rw [if_neg h, if_neg h, List.getElem?_append]
      simp only [List.length_take, List.length_drop]
      rw [Nat.min_eq_left (by omega)]
      by_cases h' : i < dst + n
      · rw [if_pos (by omega), if_pos h', List.getElem?_take, if_pos (by omega), List.getElem?_drop]
      · rw [if_neg (by omega), if_neg h', List.getElem?_drop]
        congr 1; omega

/-- Inserting a port that is not there. -/
theorem insertPort_ok {m : Mgr} (h : Tab m) {p : Int} (hp : m.getPort p = some none) (hc : m.count < m.max) :
    ∃ k ports, m.insertPort p = some (some k, { m with ports }) ∧ k ≤ m.count ∧ ports.length = m.max ∧
      (∀ i x, i < k → m.ports[i]? = some x → x.port < p) ∧
      (∀ i x, k ≤ i → i < m.count → m.ports[i]? = some x → p < x.port) ∧
      (∀ i, i < k → ports[i]? = m.ports[i]?) ∧ (∀ i, k ≤ i → i < m.count → ports[i + 1]? = m.ports[i]?) := by
  obtain ⟨⟨k, f⟩, h1, h2, h3⟩ := search_ok (p := p) (c := m.count) (by have := h.len; have := h.cnt; omega) h.sorted 0 m.count
    (by omega) (by omega) (by intro i x hi; omega) (by intro i x hi hj; omega)
  rw [Mgr.getPort, h1] at hp
  cases f
  · obtain ⟨h4, h5, h6⟩ := h3 rfl
    simp only [] at h4 h5 h6
    have hl := h.len
    obtain ⟨l', e1, e2, e3⟩ := memmove_ok (l := m.ports) (dst := k + 1) (src := k) (n := m.count - k) (by omega) (by omega)
    refine ⟨k, l', ?_, h4, by omega, h5, h6, ?_, ?_⟩
    · simp [Mgr.insertPort, h1, e1]
    · intro i hi
      rw [e3, if_pos (by omega)]
    · intro i hi hic
      rw [e3, if_neg (by omega), if_pos (by omega)]
      congr 1; omega
  · cases hp

/-- Deleting a port. -/
theorem deletePort_ok {m : Mgr} (h : Tab m) {k : Nat} (hk : k < m.count) :
    ∃ ports, m.deletePort k = some { m with ports } ∧ ports.length = m.max ∧
      (∀ i, i < k → ports[i]? = m.ports[i]?) ∧ (∀ i, k ≤ i → i + 1 < m.count → ports[i]? = m.ports[i + 1]?) := by
  have hl := h.len
  have hc := h.cnt
  obtain ⟨l', e1, e2, e3⟩ := memmove_ok (l := m.ports) (dst := k) (src := k + 1) (n := m.count - k - 1) (by omega) (by omega)
  refine ⟨l', ?_, by omega, ?_, ?_⟩
  · simp [Mgr.deletePort, e1]
  · intro i hi
    rw [e3, if_pos hi]
  · intro i hi hic
    rw [e3, if_neg (by omega), if_pos (by omega)]
    congr 1; omega

/-! ## The invariant -/

/-- A port in use. -/
def Live (m : Mgr) (i : Nat) (x : Slot) : Prop := i < m.count ∧ m.ports[i]? = some x

/-- The table, the interfaces and the set of descriptors agree; `lv`: the index of the port that is being removed. -/
structure Core (m : Mgr) (heap : Nat → Option Nat) (net : Nat → Option File) (lv : Option Nat) : Prop where
  tab : Tab m
  slot : ∀ i x, Live m i x → ∃ b f, x.bmi = some b ∧ heap b = some x.fd ∧ net x.fd = some f ∧ x.fd ≠ m.sp1 ∧
    (x.fd : Int) ≤ m.maxFd
  inj : ∀ i j x y, Live m i x → Live m j y → x.fd = y.fd → i = j
  own : ∀ fd f, net fd = some f → ∃ i x, Live m i x ∧ x.fd = fd
  bits1 : ∀ fd, m.fds fd = true → fd = m.sp1 ∨ ∃ i x, Live m i x ∧ x.fd = fd ∧ lv ≠ some i
  bits2 : m.fds m.sp1 = true
  bits3 : ∀ i x, Live m i x → lv ≠ some i → m.fds x.fd = true
  top : 0 ≤ m.maxFd

/-- The index of the port that is being removed. -/
def Ctl.leaving : Ctl → Option Nat
  | .wait idx _ => some idx
  | _ => none

/-- What always holds, until the manager is destroyed. -/
structure Inv (s : Sys) : Prop where
  core : Core s.m s.heap s.net s.ctl.leaving
  sel : ∀ fds mf, s.pc = .select fds mf →
    fds s.m.sp1 = true ∧ 0 ≤ mf ∧ ∀ fd, fds fd = true → fd = s.m.sp1 ∨ (s.net fd).isSome = true
  ctl : (s.ctl = .idle ∧ s.toThread = false ∧ s.toCtl = false) ∨
    ∃ idx, s.ctl = .wait idx none ∧ idx < s.m.count ∧ (∀ n fds i, s.pc ≠ .loop n fds i) ∧
      ((s.toThread = true ∧ s.toCtl = false) ∨
        (s.toThread = false ∧ s.toCtl = true ∧ (s.pc = .copy ∨ ∃ n fds, s.pc = .relock n fds)))
  hd : ∀ n fds idx, s.pc = .loop n fds idx → s.m.handler = true

theorem create_inv (max sp1 : Nat) : Inv (.create max sp1) := by
  have hn : ∀ i x, ¬ Live (Sys.create max sp1).m i x := fun i x h => absurd h.1 (by simp [Sys.create])
  refine ⟨⟨⟨by simp [Sys.create], by simp [Sys.create], ?_⟩, ?_, ?_, ?_, ?_, ?_, ?_, ?_⟩, ?_, ?_, by intro n fds i e; simp [Sys.create] at e⟩
  · intro i j x y _ h; simp [Sys.create] at h
  · exact fun i x h => absurd h (hn i x)
  · exact fun i j x y h => absurd h (hn i x)
  · intro fd f h; simp [Sys.create] at h
  · intro fd h; left; simpa [Sys.create] using h
  · simp [Sys.create]
  · exact fun i x h => absurd h (hn i x)
  · simp [Sys.create]
  · intro fds mf h; simp [Sys.create] at h
  · left; simp [Sys.create]

/-- The ports of the manager are those of the specification. -/
structure Ports (m : Mgr) (port : Int → Option Port) : Prop where
  to : ∀ i x, Live m i x → ∃ q, port x.port = some q ∧ q.fd = x.fd ∧ q.stats = x.stats
  from' : ∀ p q, port p = some q → ∃ i x, Live m i x ∧ x.port = p

/-- The state of the specification. -/
structure Rel (s : Sys) (S : St) : Prop where
  ports : Ports s.m S.port
  n : S.n = s.m.count
  net : S.net = s.net
  handler : S.handler = s.m.handler
  leaving : ∀ p, S.leaving = some p ↔ ∃ idx x, s.ctl.leaving = some idx ∧ s.m.ports[idx]? = some x ∧ x.port = p

theorem create_rel (max sp1 : Nat) : Rel (.create max sp1) start := by
  refine ⟨⟨fun i x h => absurd h.1 (by simp [Sys.create]), fun p q h => by simp [start] at h⟩, rfl, rfl, rfl, ?_⟩
  intro p; simp [start, Sys.create, Ctl.leaving]

theorem Live.inj {m : Mgr} {i : Nat} {x y : Slot} (h : Live m i x) (h' : Live m i y) : x = y := by
  have := h.2.symm.trans h'.2
  exact Option.some.inj this

/-- A port is at one place. -/
theorem Live.port_inj {m : Mgr} (ht : Tab m) {i j : Nat} {x y : Slot} (h : Live m i x) (h' : Live m j y)
    (e : x.port = y.port) : i = j := by
  rcases Nat.lt_trichotomy i j with hl | hl | hl
  · have := ht.sorted i j x y hl h'.1 h.2 h'.2; omega
  · exact hl
  · have := ht.sorted j i y x hl h.1 h'.2 h.2; omega

theorem Ports.none {m : Mgr} {port : Int → Option Port} (h : Ports m port) {p : Int}
    (hp : ∀ i x, i < m.count → m.ports[i]? = some x → x.port ≠ p) : port p = none := by
  cases hq : port p with
  | none => rfl
  | some q =>
    obtain ⟨i, x, hx, e⟩ := h.from' p q hq
    exact absurd e (hp i x hx.1 hx.2)

/-! ## Changing counters and interfaces -/

theorem setStats_get {m : Mgr} {k : Nat} {x : Slot} (t : Stats) (hk : m.ports[k]? = some x) (i : Nat) :
    (m.setStats k x t).ports[i]? = if i = k then some { x with stats := t } else m.ports[i]? := by
  have : k < m.ports.length := by
    rw [List.getElem?_eq_some_iff] at hk; exact hk.1
  simp only [Mgr.setStats, List.getElem?_set]
  by_cases h : i = k
  · rw [if_pos h.symm, if_pos h, if_pos this]
  · rw [if_neg (Ne.symm h), if_neg h]

theorem setStats_live {m : Mgr} {k : Nat} {x : Slot} (t : Stats) (hk : m.ports[k]? = some x) {i : Nat} {y : Slot}
    (h : Live (m.setStats k x t) i y) : ∃ z, Live m i z ∧ y.bmi = z.bmi ∧ y.port = z.port ∧ y.fd = z.fd ∧
      (i ≠ k → y = z) ∧ (i = k → y = { x with stats := t }) := by
  obtain ⟨h1, h2⟩ := h
  rw [setStats_get t hk] at h2
  by_cases hi : i = k
  · rw [if_pos hi] at h2
    cases h2
    exact ⟨x, ⟨h1, hi ▸ hk⟩, rfl, rfl, rfl, fun h => absurd hi h, fun _ => rfl⟩
  · rw [if_neg hi] at h2
    exact ⟨y, ⟨h1, h2⟩, rfl, rfl, rfl, fun _ => rfl, fun h => absurd h hi⟩

theorem live_setStats {m : Mgr} {k : Nat} {x : Slot} (t : Stats) (hk : m.ports[k]? = some x) {i : Nat} {z : Slot}
    (h : Live m i z) : ∃ y, Live (m.setStats k x t) i y ∧ y.fd = z.fd ∧ y.port = z.port := by
  by_cases hi : i = k
  · subst hi
    have : x = z := Option.some.inj (hk.symm.trans h.2)
    subst this
    exact ⟨{ x with stats := t }, ⟨h.1, by rw [setStats_get t hk, if_pos rfl]⟩, rfl, rfl⟩
  · exact ⟨z, ⟨h.1, by rw [setStats_get t hk, if_neg hi]; exact h.2⟩, rfl, rfl⟩

theorem setStats_core {m : Mgr} {heap : Nat → Option Nat} {net : Nat → Option File} {lv : Option Nat}
    (h : Core m heap net lv) {k : Nat} {x : Slot} (t : Stats) (hk : m.ports[k]? = some x) :
    Core (m.setStats k x t) heap net lv := by
  refine ⟨⟨?_, h.tab.cnt, ?_⟩, ?_, ?_, ?_, ?_, h.bits2, ?_, h.top⟩
  · simp only [Mgr.setStats, List.length_set]; exact h.tab.len
  · intro i j a b hij hj ha hb
    obtain ⟨a', ha', _, e1, _⟩ := setStats_live t hk (i := i) (y := a) ⟨by simp only [Mgr.setStats] at hj ⊢; omega, ha⟩
    obtain ⟨b', hb', _, e2, _⟩ := setStats_live t hk (i := j) (y := b) ⟨hj, hb⟩
    rw [e1, e2]
    exact h.tab.sorted i j a' b' hij hj ha'.2 hb'.2
  · intro i y hy
    obtain ⟨z, hz, e1, e2, e3, _⟩ := setStats_live t hk hy
    rw [e1, e3]
    exact h.slot i z hz
  · intro i j a b ha hb e
    obtain ⟨a', ha', _, _, e1, _⟩ := setStats_live t hk ha
    obtain ⟨b', hb', _, _, e2, _⟩ := setStats_live t hk hb
    exact h.inj i j a' b' ha' hb' (by rw [← e1, ← e2]; exact e)
  · intro fd f hf
    obtain ⟨i, z, hz, e⟩ := h.own fd f hf
    obtain ⟨y, hy, e1, _⟩ := live_setStats t hk hz
    exact ⟨i, y, hy, e1.trans e⟩
  · intro fd hf
    rcases h.bits1 fd hf with h | ⟨i, z, hz, e, hl⟩
    · exact .inl h
    · obtain ⟨y, hy, e1, _⟩ := live_setStats t hk hz
      exact .inr ⟨i, y, hy, e1.trans e, hl⟩
  · intro i y hy hl
    obtain ⟨z, hz, _, _, e3, _⟩ := setStats_live t hk hy
    rw [e3]
    exact h.bits3 i z hz hl

theorem upd_isSome {net : Nat → Option File} {fd : Nat} {f g : File} (h : net fd = some f) (i : Nat) :
    (upd net fd (some g) i).isSome = (net i).isSome := by
  simp only [upd]
  split
  · rename_i e; rw [e, h]; rfl
  · rfl

theorem net_core {m : Mgr} {heap : Nat → Option Nat} {net : Nat → Option File} {lv : Option Nat}
    (h : Core m heap net lv) {fd : Nat} {f g : File} (hf : net fd = some f) : Core m heap (upd net fd (some g)) lv := by
  have key : ∀ i, (∃ a, upd net fd (some g) i = some a) ↔ ∃ a, net i = some a := fun i => by
    have := upd_isSome (g := g) hf i
    rw [Bool.eq_iff_iff, Option.isSome_iff_exists, Option.isSome_iff_exists] at this
    exact this
  refine ⟨h.tab, ?_, h.inj, ?_, h.bits1, h.bits2, h.bits3, h.top⟩
  · intro i x hx
    obtain ⟨b, f', h1, h2, h3, h4, h5⟩ := h.slot i x hx
    obtain ⟨a, ha⟩ := (key x.fd).2 ⟨f', h3⟩
    exact ⟨b, a, h1, h2, ha, h4, h5⟩
  · intro i a ha
    obtain ⟨a', ha'⟩ := (key i).1 ⟨a, ha⟩
    exact h.own i a' ha'

/-- The counters of one port change, in the manager and in the specification. -/
theorem setStats_ports {m : Mgr} {port : Int → Option Port} (ht : Tab m) (h : Ports m port) {k : Nat} {x : Slot}
    (hk : Live m k x) (q : Port) (hq : q.fd = x.fd) : Ports (m.setStats k x q.stats) (upd port x.port (some q)) := by
  constructor
  · intro i y hy
    obtain ⟨z, hz, e1, e2, e3, e4, e5⟩ := setStats_live q.stats hk.2 hy
    by_cases hi : i = k
    · subst hi
      have := hz.inj hk
      subst this
      refine ⟨q, by simp [upd, e2], by rw [hq, e3], by rw [e5 rfl]⟩
    · have hne : z.port ≠ x.port := fun e => hi (hz.port_inj ht hk e)
      rw [e4 hi]
      obtain ⟨q', h1, h2⟩ := h.to i z hz
      exact ⟨q', by simp [upd, hne, h1], h2⟩
  · intro p q' hp
    by_cases e : p = x.port
    · subst e
      obtain ⟨y, hy, _, e2⟩ := live_setStats q.stats hk.2 hk
      exact ⟨k, y, hy, e2⟩
    · simp only [upd, if_neg e] at hp
      obtain ⟨i, z, hz, e'⟩ := h.from' p q' hp
      obtain ⟨y, hy, _, e2⟩ := live_setStats q.stats hk.2 hz
      exact ⟨i, y, hy, e2.trans e'⟩

/-! ## Steps -/

/-- A step that keeps the invariant and that the specification allows. -/
def Good (max : Nat) (S : St) : Res → Prop
  | .blocked => True
  | .bad => False
  | .ok e s => Inv s ∧ s.m.max = max ∧ ∃ S', Step max S e S' ∧ Rel s S'

theorem inv_net {s : Sys} (h : Inv s) {fd : Nat} {f g : File} (hf : s.net fd = some f) :
    Inv { s with net := upd s.net fd (some g) } := by
  refine ⟨net_core h.core hf, ?_, h.ctl, h.hd⟩
  intro fds mf e
  obtain ⟨h1, h2, h3⟩ := h.sel fds mf e
  refine ⟨h1, h2, fun i hi => ?_⟩
  rcases h3 i hi with h | h
  · exact .inl h
  · right
    exact (upd_isSome hf i).trans h

theorem inv_stats {s : Sys} (h : Inv s) {k : Nat} {x : Slot} (t : Stats) (hk : s.m.ports[k]? = some x) :
    Inv { s with m := s.m.setStats k x t } := ⟨setStats_core h.core t hk, h.sel, h.ctl, h.hd⟩

theorem inv_pc {s : Sys} (h : Inv s) (hi : s.ctl = .idle) (pc : Pc)
    (hs : ∀ fds mf, pc = .select fds mf →
      fds s.m.sp1 = true ∧ 0 ≤ mf ∧ ∀ fd, fds fd = true → fd = s.m.sp1 ∨ (s.net fd).isSome = true)
    (hl : ∀ n fds idx, pc = .loop n fds idx → s.m.handler = true) : Inv { s with pc := pc } := by
  refine ⟨h.core, hs, ?_, hl⟩
  rcases h.ctl with h | ⟨idx, e, _⟩
  · exact .inl h
  · rw [hi] at e; cases e

theorem rel_net {s : Sys} {S : St} (h : Rel s S) (fd : Nat) (g : File) :
    Rel { s with net := upd s.net fd (some g) } { S with net := upd S.net fd (some g) } :=
  ⟨h.ports, h.n, by simp only [h.net], h.handler, h.leaving⟩

theorem rel_pc {s : Sys} {S : St} (h : Rel s S) (pc : Pc) : Rel { s with pc := pc } S :=
  ⟨h.ports, h.n, h.net, h.handler, h.leaving⟩

theorem rel_idle {s : Sys} {S : St} (h : Rel s S) (hi : s.ctl = .idle) : S.leaving = none := by
  cases hl : S.leaving with
  | none => rfl
  | some p =>
    obtain ⟨idx, x, e, _⟩ := (h.leaving p).1 hl
    rw [hi] at e; cases e

theorem rel_stats {s : Sys} {S : St} (h : Rel s S) (ht : Tab s.m) (hi : s.ctl = .idle) {k : Nat} {x : Slot} (hk : Live s.m k x)
    (q : Port) (hq : q.fd = x.fd) :
    Rel { s with m := s.m.setStats k x q.stats } { S with port := upd S.port x.port (some q) } := by
  refine ⟨setStats_ports ht h.ports hk q hq, h.n, h.net, h.handler, ?_⟩
  intro p
  simp only [hi, Ctl.leaving, rel_idle h hi]
  simp

theorem free_idle {s : Sys} (h : s.free = true) : s.ctl = .idle := by simpa [Sys.free] using h

theorem canWrite_idle {s : Sys} (h : s.canWrite = true) : s.ctl = .idle := by
  simp only [Sys.canWrite, Bool.and_eq_true, beq_iff_eq] at h; exact h.1

theorem canRead_idle {s : Sys} (hi : Inv s) (h : s.canRead = true) : s.ctl = .idle := by
  rcases hi.ctl with h' | ⟨idx, e, _⟩
  · exact h'.1
  · rw [Sys.canRead, e] at h; simp at h

theorem ofNat_append_len (l : List Bytes) (d : Bytes) :
    UInt64.ofNat (l ++ [d]).length = UInt64.ofNat l.length + 1 := by
  simp

theorem ofNat_append_sum (l : List Bytes) (d : Bytes) :
    UInt64.ofNat ((l ++ [d]).map List.length).sum = UInt64.ofNat (l.map List.length).sum + .ofNat d.length := by
  simp [List.sum_append]

variable {s : Sys} {S : St}

theorem arrive_ok (h : Inv s) (r : Rel s S) (fd : Nat) (k : Pkt) : Good s.m.max S (s.step (.arrive fd k)) := by
  simp only [Sys.step]
  cases hf : s.net fd with
  | none => trivial
  | some f =>
    exact ⟨inv_net h hf, rfl, _, .arrive S fd k f (by rw [r.net]; exact hf), rel_net r _ _⟩

theorem send_ok (h : Inv s) (r : Rel s S) (p : Int) (d : Bytes) (net : Bool) : Good s.m.max S (s.step (.send p d net)) := by
  simp only [Sys.step]
  split
  · rename_i hfree
    have hi := free_idle hfree
    rcases getPort_ok h.core.tab p with ⟨i, x, h1, h2, h3, h4⟩ | ⟨h1, h2⟩
    · obtain ⟨b, f, e1, e2, e3, _⟩ := h.core.slot i x ⟨h2, h3⟩
      obtain ⟨q, q1, q2, q3⟩ := r.ports.to i x ⟨h2, h3⟩
      cases net
      · simp only [Sys.send, h1, h3, e1, e2, e3, Option.bind_eq_bind, Option.bind_some, Res.of]
        exact ⟨h, rfl, S, .notSent S p d false (.inr rfl), r⟩
      · simp only [Sys.send, h1, h3, e1, e2, e3, Option.bind_eq_bind, Option.bind_some, Res.of]
        refine ⟨inv_net (inv_stats h _ h3) e3, rfl, _, .sent S p q f d (h4 ▸ q1) (by rw [r.net, q2]; exact e3), ?_⟩
        have hq : x.stats.addOut d.length = ({ q with sent := q.sent ++ [d] } : Port).stats := by
          rw [← q3]
          simp only [Stats.addOut, Port.stats, ofNat_append_len, ofNat_append_sum]
        have := rel_net (rel_stats r h.core.tab hi ⟨h2, h3⟩ { q with sent := q.sent ++ [d] } q2) x.fd
          { f with out := f.out ++ [d] }
        simpa only [hq, q2, h4] using this
    · simp only [Sys.send, h1, Option.bind_eq_bind, Option.bind_some, Res.of]
      refine ⟨h, rfl, S, .notSent S p d net ?_, r⟩
      cases net
      · exact .inr rfl
      · exact .inl ⟨rfl, r.ports.none h2⟩
  · trivial

theorem stats_ok (h : Inv s) (r : Rel s S) (p : Int) : Good s.m.max S (s.step (.stats p)) := by
  simp only [Sys.step]
  split
  · rcases getPort_ok h.core.tab p with ⟨i, x, h1, h2, h3, h4⟩ | ⟨h1, h2⟩
    · obtain ⟨q, q1, q2, q3⟩ := r.ports.to i x ⟨h2, h3⟩
      simp only [Sys.stats, h1, h3, Option.bind_eq_bind, Option.bind_some, Res.of]
      refine ⟨h, rfl, S, ?_, r⟩
      have := Step.stats (max := s.m.max) S p
      rw [← h4, q1, Option.map_some, q3, h4] at this
      exact this
    · simp only [Sys.stats, h1, Option.bind_eq_bind, Option.bind_some, Res.of]
      refine ⟨h, rfl, S, ?_, r⟩
      have := Step.stats (max := s.m.max) S p
      rw [r.ports.none h2] at this
      exact this
  · trivial

theorem upd_same {α β : Type} [DecidableEq α] (f : α → β) (a : α) : upd f a (f a) = f := by
  funext x; simp only [upd]; split
  · rename_i h; rw [h]
  · rfl

theorem clear_ok (h : Inv s) (r : Rel s S) (p : Int) : Good s.m.max S (s.step (.clear p)) := by
  simp only [Sys.step]
  split
  · rename_i hfree
    have hi := free_idle hfree
    have hst := Step.clear (max := s.m.max) S p
    rcases getPort_ok h.core.tab p with ⟨i, x, h1, h2, h3, h4⟩ | ⟨h1, h2⟩
    · obtain ⟨q, q1, q2, q3⟩ := r.ports.to i x ⟨h2, h3⟩
      simp only [Sys.clear, h1, h3, Option.bind_eq_bind, Option.bind_some, Res.of]
      rw [← h4, q1, Option.map_some, Option.map_some, q3, h4] at hst
      refine ⟨inv_stats h _ h3, rfl, _, hst, ?_⟩
      have := rel_stats r h.core.tab hi ⟨h2, h3⟩ { q with received := [], sent := [] } q2
      rw [h4] at this
      exact this
    · simp only [Sys.clear, h1, Option.bind_eq_bind, Option.bind_some, Res.of]
      rw [r.ports.none h2] at hst
      refine ⟨h, rfl, _, hst, ?_⟩
      have e : upd S.port p (Option.map (fun q : Port => { q with received := [], sent := [] }) none) = S.port := by
        have := upd_same S.port p
        rw [r.ports.none h2] at this
        exact this
      rw [e]; exact r
  · trivial

theorem setHandler_ok (h : Inv s) (r : Rel s S) : Good s.m.max S (s.step .setHandler) := by
  simp only [Sys.step]
  split
  · refine ⟨⟨⟨⟨h.core.tab.len, h.core.tab.cnt, h.core.tab.sorted⟩, h.core.slot, h.core.inj, h.core.own, h.core.bits1, h.core.bits2,
      h.core.bits3, h.core.top⟩, h.sel, h.ctl, fun _ _ _ _ => rfl⟩, rfl, _, .handler S, ⟨⟨r.ports.to, r.ports.from'⟩, r.n, r.net, rfl, r.leaving⟩⟩
  · trivial

/-! ## Adding -/

theorem attach_ok (h : Core s.m s.heap s.net none) {p : Int} {b fd : Nat} (hp : s.m.getPort p = some none)
    (hc : s.m.count < s.m.max) (hb : s.heap b = none) (hf : s.net fd = none) (hs : fd ≠ s.m.sp1) (hl : fd < 1024) :
    ∃ s' k x', s.attach p b fd = some s' ∧ s'.m.max = s.m.max ∧ s'.m.sp1 = s.m.sp1 ∧ s'.m.handler = s.m.handler ∧
      s'.m.count = s.m.count + 1 ∧ s'.pc = s.pc ∧ s'.ctl = s.ctl ∧ s'.toThread = s.toThread ∧ s'.toCtl = s.toCtl ∧
      s'.net = upd s.net fd (some ⟨[], []⟩) ∧ Core s'.m s'.heap s'.net none ∧
      x'.port = p ∧ x'.fd = fd ∧ x'.stats = ⟨0, 0, 0, 0⟩ ∧ k ≤ s.m.count ∧
      ∀ i x, Live s'.m i x ↔ (i < k ∧ Live s.m i x) ∨ (i = k ∧ x = x') ∨ (k < i ∧ Live s.m (i - 1) x) := by
  obtain ⟨k, ports, h1, h2, h3, h4, h5, h6, h7⟩ := insertPort_ok h.tab hp hc
  have hlt : k < ports.length := by omega
  have hx : ports[k]? = some ports[k] := List.getElem?_eq_getElem hlt
  generalize ports[k] = x at hx
  let x' : Slot := { x with port := p, bmi := some b, stats := ⟨0, 0, 0, 0⟩, fd := fd }
  have hx' : x' = { x with port := p, bmi := some b, stats := ⟨0, 0, 0, 0⟩, fd := fd } := rfl
  refine ⟨{ s with
    m := { s.m with
      ports := ports.set k x'
      maxFd := if (fd : Int) > s.m.maxFd then fd else s.m.maxFd
      fds := upd s.m.fds fd true
      count := s.m.count + 1 }
    heap := upd s.heap b (some fd)
    net := upd s.net fd (some ⟨[], []⟩) }, k, x', ?_, rfl, rfl, rfl, rfl, rfl, rfl, rfl, rfl, rfl, ?_⟩
  · simp [Sys.attach, h1, hx, fdSet, hl, hx']
  have hlive : ∀ i y, Live { s.m with
      ports := ports.set k x'
      maxFd := if (fd : Int) > s.m.maxFd then fd else s.m.maxFd
      fds := upd s.m.fds fd true
      count := s.m.count + 1 } i y ↔
      (i < k ∧ Live s.m i y) ∨ (i = k ∧ y = x') ∨ (k < i ∧ Live s.m (i - 1) y) := by
    intro i y
    simp only [Live, List.getElem?_set]
    rcases Nat.lt_trichotomy i k with hi | hi | hi
    · rw [if_neg (by omega), h6 i hi]
      constructor
      · intro h; exact .inl ⟨hi, by omega, h.2⟩
      · rintro (⟨_, h1, h2⟩ | ⟨h1, _⟩ | ⟨h1, _⟩)
        · exact ⟨by omega, h2⟩
        · omega
        · omega
    · rw [if_pos hi.symm, if_pos hlt]
      constructor
      · intro h; exact .inr (.inl ⟨hi, (Option.some.inj h.2).symm⟩)
      · rintro (⟨h1, _⟩ | ⟨_, h1⟩ | ⟨h1, _⟩)
        · omega
        · exact ⟨by omega, by rw [h1]⟩
        · omega
    · rw [if_neg (by omega)]
      have e : i - 1 + 1 = i := by omega
      constructor
      · intro h
        have := h7 (i - 1) (by omega) (by omega)
        rw [e] at this
        exact .inr (.inr ⟨hi, by omega, this ▸ h.2⟩)
      · rintro (⟨h1, _⟩ | ⟨h1, _⟩ | ⟨_, h1, h2⟩)
        · omega
        · omega
        · have := h7 (i - 1) (by omega) (by omega)
          rw [e] at this
          exact ⟨by omega, this ▸ h2⟩
  refine ⟨?_, rfl, rfl, rfl, h2, hlive⟩
  have hfd : ∀ i y, Live s.m i y → y.fd ≠ fd := by
    intro i y hy e
    obtain ⟨_, f, _, _, e3, _⟩ := h.slot i y hy
    rw [e, hf] at e3; cases e3
  refine ⟨⟨?_, ?_, ?_⟩, ?_, ?_, ?_, ?_, ?_, ?_, ?_⟩
  · simp only [List.length_set]; exact h3
  · show s.m.count + 1 ≤ s.m.max; omega
  · intro i j a c hij hj ha hc'
    have ha := (hlive i a).1 ⟨Nat.lt_trans hij hj, ha⟩
    have hc' := (hlive j c).1 ⟨hj, hc'⟩
    rcases ha with ⟨a1, a2⟩ | ⟨a1, a2⟩ | ⟨a1, a2⟩ <;> rcases hc' with ⟨c1, c2⟩ | ⟨c1, c2⟩ | ⟨c1, c2⟩
    · exact h.tab.sorted i j a c hij c2.1 a2.2 c2.2
    · subst c2; exact h4 i a a1 a2.2
    · exact h.tab.sorted i (j - 1) a c (by omega) c2.1 a2.2 c2.2
    · omega
    · omega
    · subst a2; exact h5 (j - 1) c (by omega) c2.1 c2.2
    · omega
    · omega
    · exact h.tab.sorted (i - 1) (j - 1) a c (by omega) c2.1 a2.2 c2.2
  · have old : ∀ i y, Live s.m i y → ∃ b' f, y.bmi = some b' ∧ upd s.heap b (some fd) b' = some y.fd ∧
        upd s.net fd (some ⟨[], []⟩) y.fd = some f ∧ y.fd ≠ s.m.sp1 ∧
        (y.fd : Int) ≤ if (fd : Int) > s.m.maxFd then (fd : Int) else s.m.maxFd := by
      intro i y hy
      obtain ⟨b', f, e1, e2, e3, e4, e5⟩ := h.slot i y hy
      refine ⟨b', f, e1, ?_, ?_, e4, ?_⟩
      · rw [upd, if_neg]; exact e2
        intro e; rw [e, hb] at e2; cases e2
      · rw [upd, if_neg (hfd i y hy)]; exact e3
      · split <;> omega
    intro i y hy
    rcases (hlive i y).1 hy with ⟨_, a2⟩ | ⟨_, a2⟩ | ⟨_, a2⟩
    · exact old i y a2
    · subst a2
      refine ⟨b, ⟨[], []⟩, rfl, by simp [upd, hx'], by simp [upd, hx'], hs, ?_⟩
      show (fd : Int) ≤ if (fd : Int) > s.m.maxFd then (fd : Int) else s.m.maxFd
      split <;> omega
    · exact old _ y a2
  · intro i j a c ha hc' e
    rcases (hlive i a).1 ha with ⟨a1, a2⟩ | ⟨a1, a2⟩ | ⟨a1, a2⟩ <;>
      rcases (hlive j c).1 hc' with ⟨c1, c2⟩ | ⟨c1, c2⟩ | ⟨c1, c2⟩
    · exact h.inj i j a c a2 c2 e
    · subst c2; exact absurd e (hfd i a a2)
    · have := h.inj i (j - 1) a c a2 c2 e; omega
    · subst a2; exact absurd e.symm (hfd j c c2)
    · omega
    · subst a2; exact absurd e.symm (hfd _ c c2)
    · have := h.inj (i - 1) j a c a2 c2 e; omega
    · subst c2; exact absurd e (hfd _ a a2)
    · have := h.inj (i - 1) (j - 1) a c a2 c2 e; omega
  · intro g f hg
    by_cases e : g = fd
    · exact ⟨k, x', (hlive k x').2 (.inr (.inl ⟨rfl, rfl⟩)), e.symm⟩
    · simp only [upd, if_neg e] at hg
      obtain ⟨i, y, hy, e'⟩ := h.own g f hg
      by_cases hik : i < k
      · exact ⟨i, y, (hlive i y).2 (.inl ⟨hik, hy⟩), e'⟩
      · exact ⟨i + 1, y, (hlive _ y).2 (.inr (.inr ⟨by omega, hy⟩)), e'⟩
  · intro g hg
    by_cases e : g = fd
    · exact .inr ⟨k, x', (hlive k x').2 (.inr (.inl ⟨rfl, rfl⟩)), e.symm, nofun⟩
    · simp only [upd, if_neg e] at hg
      rcases h.bits1 g hg with h | ⟨i, y, hy, e', _⟩
      · exact .inl h
      · right
        by_cases hik : i < k
        · exact ⟨i, y, (hlive i y).2 (.inl ⟨hik, hy⟩), e', nofun⟩
        · exact ⟨i + 1, y, (hlive _ y).2 (.inr (.inr ⟨by omega, hy⟩)), e', nofun⟩
  · show upd s.m.fds fd true s.m.sp1 = true
    rw [upd, if_neg (Ne.symm hs)]; exact h.bits2
  · intro i y hy _
    show upd s.m.fds fd true y.fd = true
    rcases (hlive i y).1 hy with ⟨_, a2⟩ | ⟨_, a2⟩ | ⟨_, a2⟩
    · rw [upd, if_neg (hfd i y a2)]; exact h.bits3 i y a2 nofun
    · subst a2; rw [upd, if_pos rfl]
    · rw [upd, if_neg (hfd _ y a2)]; exact h.bits3 _ y a2 nofun
  · have := h.top
    show (0 : Int) ≤ if (fd : Int) > s.m.maxFd then (fd : Int) else s.m.maxFd
    split <;> omega

theorem add_ok (h : Inv s) (r : Rel s S) (p : Int) (os : Option (Nat × Nat)) (hos : ∀ b fd, os = some (b, fd) → fd < 1024) :
    Good s.m.max S (s.step (.add p os)) := by
  simp only [Sys.step]
  by_cases hcan : (s.canWrite && s.newOs os) = true
  case neg => rw [if_neg hcan]; trivial
  rw [if_pos hcan]
  rw [Bool.and_eq_true] at hcan
  have hi := canWrite_idle hcan.1
  have hcore := h.core
  rw [hi] at hcore
  rcases getPort_ok h.core.tab p with ⟨i, x, h1, h2, h3, h4⟩ | ⟨h1, h2⟩
  · obtain ⟨q, q1, q2, q3⟩ := r.ports.to i x ⟨h2, h3⟩
    simp only [Sys.add, h1, Option.bind_eq_bind, Option.bind_some, Option.isSome_some, if_true, Res.of]
    exact ⟨h, rfl, S, .notAdded S p _ (.inl ⟨q, h4 ▸ q1⟩), r⟩
  · simp only [Sys.add, h1, Option.bind_eq_bind, Option.bind_some, Option.isSome_none, Bool.false_eq_true, if_false]
    by_cases hm : s.m.count ≥ s.m.max
    · rw [if_pos hm]
      refine ⟨h, rfl, S, .notAdded S p _ (.inr (.inl ?_)), r⟩
      rw [r.n]; exact hm
    · rw [if_neg hm]
      cases os with
      | none => exact ⟨h, rfl, S, .notAdded S p _ (.inr (.inr rfl)), r⟩
      | some o =>
        obtain ⟨b, fd⟩ := o
        obtain ⟨_, hn⟩ := hcan
        simp only [Sys.newOs, Bool.and_eq_true, Option.isNone_iff_eq_none, bne_iff_ne] at hn
        obtain ⟨⟨hb, hf⟩, hs⟩ := hn
        obtain ⟨s', k, x', e1, e2, e3, e4, e5, e6, e7, e8, e9, e10, e11, e12, e13, e14, e15, e16⟩ :=
          attach_ok hcore h1 (by omega) hb hf hs (hos b fd rfl)
        simp only [e1, Option.bind_some, Res.of]
        refine ⟨⟨?_, ?_, ?_, by rw [e4, e6]; exact h.hd⟩, e2, _, .added S p fd (r.ports.none h2) (by rw [r.n]; omega) (by rw [r.net]; exact hf), ?_⟩
        · rw [e7, hi]; exact e11
        · intro fds mf e
          rw [e6] at e
          obtain ⟨a1, a2, a3⟩ := h.sel fds mf e
          refine ⟨by rw [e3]; exact a1, a2, fun g hg => ?_⟩
          rw [e3, e10]
          rcases a3 g hg with h | h
          · exact .inl h
          · right
            simp only [upd]; split
            · rfl
            · exact h
        · left
          rw [e7, e8, e9]
          rcases h.ctl with h | ⟨idx, e, _⟩
          · exact h
          · rw [hi] at e; cases e
        · refine ⟨⟨?_, ?_⟩, ?_, ?_, ?_, ?_⟩
          · have old : ∀ i x, Live s.m i x → ∃ q, upd S.port p (some ⟨fd, [], []⟩) x.port = some q ∧ q.fd = x.fd ∧
                q.stats = x.stats := by
              intro i x hx
              obtain ⟨q, q1, q2⟩ := r.ports.to i x hx
              exact ⟨q, by rw [upd, if_neg (h2 i x hx.1 hx.2)]; exact q1, q2⟩
            intro i x hx
            rcases (e16 i x).1 hx with ⟨_, a2⟩ | ⟨_, a2⟩ | ⟨_, a2⟩
            · exact old i x a2
            · subst a2
              exact ⟨⟨fd, [], []⟩, by simp [upd, e12], e13.symm, by rw [e14]; rfl⟩
            · exact old _ x a2
          · intro p' q hq
            by_cases e : p' = p
            · exact ⟨k, x', (e16 k x').2 (.inr (.inl ⟨rfl, rfl⟩)), e12.trans e.symm⟩
            · simp only [upd, if_neg e] at hq
              obtain ⟨i, y, hy, e'⟩ := r.ports.from' p' q hq
              by_cases hik : i < k
              · exact ⟨i, y, (e16 i y).2 (.inl ⟨hik, hy⟩), e'⟩
              · exact ⟨i + 1, y, (e16 _ y).2 (.inr (.inr ⟨by omega, hy⟩)), e'⟩
          · show S.n + 1 = _; rw [r.n, e5]
          · show upd S.net fd _ = _; rw [r.net, e10]
          · show S.handler = _; rw [r.handler, e4]
          · intro p'
            show S.leaving = some p' ↔ _
            rw [rel_idle r hi, e7, hi]; simp [Ctl.leaving]

/-! ## Removing -/

theorem canWrite_pc (h : s.canWrite = true) : ∀ n fds i, s.pc ≠ .loop n fds i := by
  intro n fds i e
  simp [Sys.canWrite, e] at h

theorem removeBegin_ok (h : Inv s) (r : Rel s S) (p : Int) : Good s.m.max S (s.step (.removeBegin p)) := by
  simp only [Sys.step]
  by_cases hcan : s.canWrite = true
  case neg => rw [if_neg hcan]; trivial
  rw [if_pos hcan]
  have hi := canWrite_idle hcan
  have hcore := h.core
  rw [hi] at hcore
  rcases getPort_ok h.core.tab p with ⟨k, x, h1, h2, h3, h4⟩ | ⟨h1, h2⟩
  · obtain ⟨b, f, e1, e2, e3, e4, e5⟩ := h.core.slot k x ⟨h2, h3⟩
    obtain ⟨q, q1, q2, q3⟩ := r.ports.to k x ⟨h2, h3⟩
    simp only [Sys.removeBegin, h1, h3, Option.bind_eq_bind, Option.bind_some, Option.isNone_none, if_true, Res.of]
    refine ⟨⟨⟨⟨hcore.tab.len, hcore.tab.cnt, hcore.tab.sorted⟩, hcore.slot, hcore.inj, hcore.own, ?_, ?_, ?_, hcore.top⟩,
      h.sel, ?_, h.hd⟩, rfl, _, .removeBegin S p q (h4 ▸ q1) (rel_idle r hi), ⟨⟨r.ports.to, r.ports.from'⟩, r.n, r.net, r.handler, ?_⟩⟩
    · intro g hg
      by_cases e : g = x.fd
      · subst e; simp [upd] at hg
      · simp only [upd, if_neg e] at hg
        rcases hcore.bits1 g hg with h | ⟨i, y, hy, e', _⟩
        · exact .inl h
        · refine .inr ⟨i, y, hy, e', ?_⟩
          intro hk
          have hk : k = i := Option.some.inj hk
          subst hk
          have : y = x := Option.some.inj (hy.2.symm.trans h3)
          rw [this] at e'
          exact e e'.symm
    · show upd s.m.fds x.fd false s.m.sp1 = true
      rw [upd, if_neg (Ne.symm e4)]; exact hcore.bits2
    · intro i y hy hk
      show upd s.m.fds x.fd false y.fd = true
      rw [upd, if_neg]
      · exact hcore.bits3 i y hy nofun
      · intro e
        have := hcore.inj i k y x hy ⟨h2, h3⟩ e
        subst this
        exact hk rfl
    · right
      have hp := canWrite_pc hcan
      refine ⟨k, rfl, h2, hp, .inl ⟨rfl, ?_⟩⟩
      rcases h.ctl with h | ⟨idx, e, _⟩
      · exact h.2.2
      · rw [hi] at e; cases e
    · intro p'
      show some p = some p' ↔ _
      simp only [Ctl.leaving]
      constructor
      · intro e; cases e; exact ⟨k, x, rfl, h3, h4⟩
      · rintro ⟨idx, y, e, hy, e'⟩
        cases e
        have : y = x := Option.some.inj (hy.symm.trans h3)
        rw [← e', this, h4]
  · simp only [Sys.removeBegin, h1, Option.bind_eq_bind, Option.bind_some, Res.of]
    exact ⟨h, rfl, S, .noRemove S p (r.ports.none h2), r⟩

theorem removeEnd_ok (h : Inv s) (r : Rel s S) : Good s.m.max S (s.step .removeEnd) := by
  simp only [Sys.step]
  rcases h.ctl with ⟨hi, _⟩ | ⟨k, hk, hkc, hnl, hb⟩
  · rw [hi]; trivial
  rw [hk]
  simp only []
  by_cases ht : s.toCtl = true
  case neg => rw [if_neg ht]; trivial
  rw [if_pos ht]
  have hpc : s.pc = .copy ∨ ∃ n fds, s.pc = .relock n fds := by
    rcases hb with ⟨_, h⟩ | ⟨_, _, h⟩
    · rw [h] at ht; cases ht
    · exact h
  have hto : s.toThread = false := by
    rcases hb with ⟨_, h⟩ | ⟨h, _⟩
    · rw [h] at ht; cases ht
    · exact h
  have hcore := h.core
  rw [hk] at hcore
  simp only [Ctl.leaving] at hcore
  have hl : k < s.m.ports.length := by have := hcore.tab.len; have := hcore.tab.cnt; omega
  have hx : s.m.ports[k]? = some s.m.ports[k] := List.getElem?_eq_getElem hl
  generalize s.m.ports[k] = x at hx
  obtain ⟨b, f, e1, e2, e3, e4, e5⟩ := h.core.slot k x ⟨hkc, hx⟩
  obtain ⟨q, q1, q2, q3⟩ := r.ports.to k x ⟨hkc, hx⟩
  have hsel : s.pc.selects x.fd = false := by
    rcases hpc with h | ⟨n, fds, h⟩ <;> rw [h] <;> rfl
  obtain ⟨ports, d1, d2, d3, d4⟩ := deletePort_ok hcore.tab hkc
  simp only [Sys.removeEnd, hx, e1, e2, e3, hsel, d1, Option.bind_eq_bind, Option.bind_some, Option.isNone_none, if_true, Res.of,
    Bool.false_eq_true, if_false]
  have hlive : ∀ i y, Live { s.m with ports, count := s.m.count - 1 } i y ↔
      (i < k ∧ Live s.m i y) ∨ (k ≤ i ∧ Live s.m (i + 1) y) := by
    intro i y
    simp only [Live]
    by_cases hik : i < k
    · rw [d3 i hik]
      constructor
      · intro h; exact .inl ⟨hik, by omega, h.2⟩
      · rintro (⟨_, h⟩ | ⟨h, _⟩)
        · exact ⟨by omega, h.2⟩
        · omega
    · constructor
      · intro h
        rw [d4 i (by omega) (by omega)] at h
        exact .inr ⟨by omega, by omega, h.2⟩
      · rintro (⟨h, _⟩ | ⟨_, h⟩)
        · omega
        · rw [d4 i (by omega) (by omega)]
          exact ⟨by omega, h.2⟩
  have old : ∀ i y, Live { s.m with ports, count := s.m.count - 1 } i y → ∃ j, j ≠ k ∧ Live s.m j y := by
    intro i y hy
    rcases (hlive i y).1 hy with ⟨a1, a2⟩ | ⟨a1, a2⟩
    · exact ⟨i, by omega, a2⟩
    · exact ⟨i + 1, by omega, a2⟩
  have new : ∀ i y, i ≠ k → Live s.m i y → ∃ j, Live { s.m with ports, count := s.m.count - 1 } j y := by
    intro i y hik hy
    by_cases h : i < k
    · exact ⟨i, (hlive i y).2 (.inl ⟨h, hy⟩)⟩
    · refine ⟨i - 1, (hlive _ y).2 (.inr ⟨by omega, ?_⟩)⟩
      have : i - 1 + 1 = i := by omega
      rw [this]; exact hy
  have hfd : ∀ i y, i ≠ k → Live s.m i y → y.fd ≠ x.fd := fun i y hik hy e => hik (hcore.inj i k y x hy ⟨hkc, hx⟩ e)
  have hlv : S.leaving = some x.port := (r.leaving x.port).2 ⟨k, x, by rw [hk]; rfl, hx, rfl⟩
  refine ⟨⟨⟨⟨?_, ?_, ?_⟩, ?_, ?_, ?_, ?_, hcore.bits2, ?_, hcore.top⟩, ?_, ?_, h.hd⟩, rfl, _, .removeEnd S x.port q hlv q1,
    ⟨⟨?_, ?_⟩, ?_, ?_, r.handler, ?_⟩⟩
  · exact d2
  · have := hcore.tab.cnt
    show s.m.count - 1 ≤ s.m.max; omega
  · intro i j a c hij hj ha hc
    have ha := (hlive i a).1 ⟨Nat.lt_trans hij hj, ha⟩
    have hc := (hlive j c).1 ⟨hj, hc⟩
    rcases ha with ⟨a1, a2⟩ | ⟨a1, a2⟩ <;> rcases hc with ⟨c1, c2⟩ | ⟨c1, c2⟩
    · exact hcore.tab.sorted i j a c hij c2.1 a2.2 c2.2
    · exact hcore.tab.sorted i (j + 1) a c (by omega) c2.1 a2.2 c2.2
    · omega
    · exact hcore.tab.sorted (i + 1) (j + 1) a c (by omega) c2.1 a2.2 c2.2
  · intro i y hy
    obtain ⟨j, hj, hy'⟩ := old i y hy
    obtain ⟨b', f', a1, a2, a3, a4, a5⟩ := hcore.slot j y hy'
    refine ⟨b', f', a1, ?_, ?_, a4, a5⟩
    · show upd s.heap b none b' = _
      rw [upd, if_neg]; exact a2
      intro e
      rw [e, e2] at a2
      exact hfd j y hj hy' (Option.some.inj a2).symm
    · show upd s.net x.fd none y.fd = some f'
      rw [upd, if_neg (hfd j y hj hy')]; exact a3
  · intro i j a c ha hc e
    rcases (hlive i a).1 ha with ⟨a1, a2⟩ | ⟨a1, a2⟩ <;> rcases (hlive j c).1 hc with ⟨c1, c2⟩ | ⟨c1, c2⟩
    · exact hcore.inj i j a c a2 c2 e
    · have := hcore.inj i (j + 1) a c a2 c2 e; omega
    · have := hcore.inj (i + 1) j a c a2 c2 e; omega
    · have := hcore.inj (i + 1) (j + 1) a c a2 c2 e; omega
  · intro g f' hg
    by_cases e : g = x.fd
    · subst e; simp [upd] at hg
    · simp only [upd, if_neg e] at hg
      obtain ⟨i, y, hy, e'⟩ := hcore.own g f' hg
      have hik : i ≠ k := by
        intro h; subst h
        have : y = x := Option.some.inj (hy.2.symm.trans hx)
        rw [this] at e'; exact e e'.symm
      obtain ⟨j, hj⟩ := new i y hik hy
      exact ⟨j, y, hj, e'⟩
  · intro g hg
    rcases hcore.bits1 g hg with h | ⟨i, y, hy, e', hlk⟩
    · exact .inl h
    · right
      have hik : i ≠ k := fun h => hlk (by rw [h])
      obtain ⟨j, hj⟩ := new i y hik hy
      exact ⟨j, y, hj, e', nofun⟩
  · intro i y hy _
    obtain ⟨j, hj, hy'⟩ := old i y hy
    exact hcore.bits3 j y hy' (fun h => hj (Option.some.inj h).symm)
  · intro fds mf e
    rcases hpc with h | ⟨n, fds, h⟩
    · have e : s.pc = _ := e
      rw [h] at e; cases e
    · have e : s.pc = _ := e
      rw [h] at e; cases e
  · exact .inl ⟨rfl, hto, rfl⟩
  · intro i y hy
    obtain ⟨j, hj, hy'⟩ := old i y hy
    obtain ⟨q', a1, a2⟩ := r.ports.to j y hy'
    refine ⟨q', ?_, a2⟩
    show upd S.port x.port none y.port = some q'
    rw [upd, if_neg]; exact a1
    exact fun e => hj (hy'.port_inj hcore.tab ⟨hkc, hx⟩ e)
  · intro p' q' hp
    by_cases e : p' = x.port
    · subst e; simp [upd] at hp
    · simp only [upd, if_neg e] at hp
      obtain ⟨i, y, hy, e'⟩ := r.ports.from' p' q' hp
      have hik : i ≠ k := by
        intro h; subst h
        have : y = x := Option.some.inj (hy.2.symm.trans hx)
        rw [this] at e'; exact e e'.symm
      obtain ⟨j, hj⟩ := new i y hik hy
      exact ⟨j, y, hj, e'⟩
  · show S.n - 1 = s.m.count - 1; rw [r.n]
  · show upd S.net q.fd none = upd s.net x.fd none; rw [r.net, q2]
  · intro p'; simp [Ctl.leaving]

/-! ## The thread -/

theorem copy_ok (h : Inv s) (r : Rel s S) : Good s.m.max S (s.step .copy) := by
  simp only [Sys.step]
  split
  · split
    · rename_i hpc hc
      have hi := canRead_idle h hc
      refine ⟨inv_pc h hi _ ?_ (by intro _ _ _ e; cases e), rfl, S, .tau S, rel_pc r _⟩
      intro fds mf e
      cases e
      refine ⟨h.core.bits2, h.core.top, fun fd hf => ?_⟩
      rcases h.core.bits1 fd hf with h' | ⟨i, x, hx, e, _⟩
      · exact .inl h'
      · obtain ⟨_, f, _, _, e3, _⟩ := h.core.slot i x hx
        right; rw [← e, e3]; rfl
    · trivial
  · trivial

/-- Before the byte is sent back the thread can go anywhere except into the loop. -/
theorem inv_go (h : Inv s) {fds : Nat → Bool} {mf : Int} (hs : s.pc = .select fds mf) (pc : Pc)
    (h1 : ∀ fds mf, pc ≠ .select fds mf) (h2 : ∀ n fds i, pc ≠ .loop n fds i) : Inv { s with pc := pc } := by
  refine ⟨h.core, fun fds mf e => absurd e (h1 fds mf), ?_, fun n fds i e => absurd e (h2 n fds i)⟩
  rcases h.ctl with h | ⟨k, a1, a2, a3, a4⟩
  · exact .inl h
  · refine .inr ⟨k, a1, a2, h2, ?_⟩
    rcases a4 with h | ⟨_, _, h6⟩
    · exact .inl h
    · rw [hs] at h6
      rcases h6 with h | ⟨_, _, h⟩ <;> cases h

theorem afterSelect_ok (h : Inv s) (r : Rel s S) {fds : Nat → Bool} {mf : Int} (hs : s.pc = .select fds mf) (n : Int)
    (res : Nat → Bool) : Good s.m.max S (.ok .tau (s.afterSelect mf n res)) := by
  refine ⟨inv_go h hs _ ?_ ?_, rfl, S, .tau S, rel_pc r _⟩
  · intro fds mf e
    simp only [Pc.go] at e
    repeat' split at e
    all_goals cases e
  · intro n fds i e
    simp only [Pc.go] at e
    repeat' split at e
    all_goals cases e

theorem select_ok (h : Inv s) (r : Rel s S) : Good s.m.max S (s.step .select) := by
  simp only [Sys.step]
  split
  · rename_i fds mf hpc
    obtain ⟨h1, h2, h3⟩ := h.sel fds mf hpc
    have : ((List.range (mf + 1).toNat).all fun i => !fds i || i == s.m.sp1 || (s.net i).isSome) = true := by
      rw [List.all_eq_true]
      intro i _
      cases hf : fds i with
      | false => rfl
      | true =>
        rcases h3 i hf with h | h
        · simp [h]
        · simp [h]
    rw [Sys.select, if_pos this]
    exact afterSelect_ok h r hpc _ _
  · trivial

theorem interrupt_ok (h : Inv s) (r : Rel s S) : Good s.m.max S (s.step .interrupt) := by
  simp only [Sys.step]
  split
  · rename_i fds mf hpc
    exact afterSelect_ok h r hpc _ _
  · trivial

theorem bounce_ok (h : Inv s) (r : Rel s S) : Good s.m.max S (s.step .bounce) := by
  simp only [Sys.step]
  split
  · rename_i n fds hpc
    split
    · rename_i ht
      have hnl : ∀ n' fds' i, Pc.go (n - 1) fds ≠ .loop n' fds' i := by
        intro n' fds' i e
        simp only [Pc.go] at e
        split at e <;> cases e
      refine ⟨⟨h.core, ?_, ?_, fun a b c e => absurd e (hnl a b c)⟩, rfl, S, .tau S, ⟨r.ports, r.n, r.net, r.handler, r.leaving⟩⟩
      · intro fds mf e
        simp only [Pc.go] at e
        split at e <;> cases e
      · rcases h.ctl with ⟨_, h', _⟩ | ⟨k, a1, a2, a3, a4⟩
        · rw [h'] at ht; cases ht
        · refine .inr ⟨k, a1, a2, ?_, .inr ⟨rfl, rfl, ?_⟩⟩
          · intro n fds i e
            simp only [Pc.go] at e
            split at e <;> cases e
          · simp only [Pc.go]
            split
            · exact .inl rfl
            · exact .inr ⟨_, _, rfl⟩
    · trivial
  · trivial

theorem relock_ok (h : Inv s) (r : Rel s S) : Good s.m.max S (s.step .relock) := by
  simp only [Sys.step]
  split
  · split
    · rename_i hc
      have hi := canRead_idle h hc
      refine ⟨inv_pc h hi _ ?_ ?_, rfl, S, .tau S, rel_pc r _⟩
      · intro fds mf e
        split at e <;> cases e
      · intro n fds idx e
        split at e
        · assumption
        · cases e
    · trivial
  · trivial

theorem loop_idle (h : Inv s) {n : Int} {fds : Nat → Bool} {idx : Nat} (hp : s.pc = .loop n fds idx) : s.ctl = .idle := by
  rcases h.ctl with h | ⟨k, _, _, h3, _⟩
  · exact h.1
  · exact absurd hp (h3 n fds idx)

/-- Receiving from a port. -/
theorem recv_ok (h : Inv s) (r : Rel s S) (hi : s.ctl = .idle) (hh : s.m.handler = true) {idx : Nat} {x : Slot}
    (hx : Live s.m idx x) : ∃ e s', s.recv idx x = some (e, s') ∧ Inv s' ∧ s'.ctl = .idle ∧ s'.m.max = s.m.max ∧
      s'.m.handler = true ∧ ∃ S', Step s.m.max S e S' ∧ Rel s' S' := by
  obtain ⟨b, f, e1, e2, e3, e4, e5⟩ := h.core.slot idx x hx
  obtain ⟨q, q1, q2, q3⟩ := r.ports.to idx x hx
  have hf : S.net q.fd = some f := by rw [r.net, q2]; exact e3
  simp only [Sys.recv, e1, e2, e3, Option.bind_eq_bind, Option.bind_some]
  cases hp : f.pend with
  | nil => exact ⟨_, s, rfl, h, hi, rfl, hh, S, .tau S, r⟩
  | cons k rest =>
    simp only []
    obtain ⟨d, c⟩ := k
    cases c
    · simp only [Bool.false_eq_true, if_false]
      refine ⟨_, _, rfl, inv_net (inv_stats h _ hx.2) e3, hi, rfl, hh, _,
        .deliver S x.port q f d rest (by rw [r.handler]; exact hh) q1 hf hp (rel_idle r hi), ?_⟩
      have hq : x.stats.addIn d.length = ({ q with received := q.received ++ [d] } : Port).stats := by
        rw [← q3]
        simp only [Stats.addIn, Port.stats, ofNat_append_len, ofNat_append_sum]
      have := rel_net (rel_stats r h.core.tab hi hx { q with received := q.received ++ [d] } q2) x.fd
        { f with pend := rest }
      simpa only [hq, q2] using this
    · simp only [if_true]
      refine ⟨_, _, rfl, inv_net h e3, hi, rfl, hh, _, .cut S x.port q f d rest q1 hf hp (rel_idle r hi), ?_⟩
      have := rel_net r x.fd { f with pend := rest }
      rw [q2]
      exact this

theorem iter_ok (h : Inv s) (r : Rel s S) : Good s.m.max S (s.step .iter) := by
  simp only [Sys.step]
  split
  · rename_i n fds idx hpc
    have hi := loop_idle h hpc
    have hh := h.hd n fds idx hpc
    simp only [Sys.iter]
    by_cases hend : n = 0 ∨ ¬ idx < s.m.count
    · rw [if_pos hend]
      exact ⟨inv_pc h hi _ (by intro fds mf e; cases e) (by intro _ _ _ e; cases e), rfl, S, .tau S, rel_pc r _⟩
    · rw [if_neg hend]
      have hlt : idx < s.m.count := by omega
      have hl : idx < s.m.ports.length := by have := h.core.tab.len; have := h.core.tab.cnt; omega
      have hx : s.m.ports[idx]? = some s.m.ports[idx] := List.getElem?_eq_getElem hl
      generalize s.m.ports[idx] = x at hx
      obtain ⟨b, f, e1, _⟩ := h.core.slot idx x ⟨hlt, hx⟩
      simp only [hx, e1, Option.bind_eq_bind, Option.bind_some]
      by_cases hf : fds x.fd = true
      · rw [if_pos hf]
        obtain ⟨e, s', a1, a2, a3, a4, a5, S', a6, a7⟩ := recv_ok h r hi hh ⟨hlt, hx⟩
        simp only [a1, Option.bind_some, Res.of]
        exact ⟨inv_pc a2 a3 _ (by intro fds mf e; cases e) (fun _ _ _ _ => a5), a4, S', a6, rel_pc a7 _⟩
      · rw [if_neg hf]
        exact ⟨inv_pc h hi _ (by intro fds mf e; cases e) (fun _ _ _ _ => hh), rfl, S, .tau S, rel_pc r _⟩
  · trivial

/-! ## All steps -/

/-- The manager is not destroyed, and descriptors fit into an `fd_set`. -/
def Fits : Act → Prop
  | .destroyBegin => False
  | .add _ (some (_, fd)) => fd < 1024
  | _ => True

theorem step_ok (h : Inv s) (r : Rel s S) (a : Act) (ha : Fits a) : Good s.m.max S (s.step a) := by
  have hd : ∀ i, s.ctl ≠ .destroy i := by
    intro i e
    rcases h.ctl with h | ⟨k, h, _⟩
    · rw [e] at h; cases h.1
    · rw [e] at h; cases h
  have hj : s.ctl ≠ .join := by
    intro e
    rcases h.ctl with h | ⟨k, h, _⟩
    · rw [e] at h; cases h.1
    · rw [e] at h; cases h
  cases a with
  | arrive fd k => exact arrive_ok h r fd k
  | add p os => exact add_ok h r p os (by rintro b fd rfl; exact ha)
  | removeBegin p => exact removeBegin_ok h r p
  | removeEnd => exact removeEnd_ok h r
  | setHandler => exact setHandler_ok h r
  | send p d net => exact send_ok h r p d net
  | stats p => exact stats_ok h r p
  | clear p => exact clear_ok h r p
  | destroyBegin => exact ha.elim
  | destroyNext =>
    simp only [Sys.step]
    trivial
  | destroyEnd =>
    simp only [Sys.step]
    split
    · rename_i e _; exact absurd e hj
    · trivial
  | copy => exact copy_ok h r
  | select => exact select_ok h r
  | interrupt => exact interrupt_ok h r
  | bounce => exact bounce_ok h r
  | relock => exact relock_ok h r
  | iter => exact iter_ok h r

theorem run_ok (max : Nat) : ∀ (as : List Act) (s : Sys) (S : St), Inv s → s.m.max = max → Rel s S → (∀ a ∈ as, Fits a) →
    match s.run as with
    | .blocked => True
    | .bad => False
    | .ok es s' => Inv s' ∧ s'.m.max = max ∧ ∃ S', Run max S es S' ∧ Rel s' S'
  | [], s, S, h, hm, r, _ => ⟨h, hm, S, .nil S, r⟩
  | a :: as, s, S, h, hm, r, ha => by
    have := step_ok h r a (ha a (by simp))
    rw [Sys.run]
    cases hs : s.step a with
    | blocked => trivial
    | bad => rw [hs] at this; exact this
    | ok e s' =>
      rw [hs] at this
      obtain ⟨h1, h2, S1, h3, h4⟩ := this
      rw [hm] at h2 h3
      have ih := run_ok max as s' S1 h1 h2 h4 (fun a h => ha a (by simp [h]))
      simp only []
      cases hr : s'.run as with
      | blocked => trivial
      | bad => rw [hr] at ih; exact ih
      | ok es s'' =>
        rw [hr] at ih
        obtain ⟨i1, i2, S2, i3, i4⟩ := ih
        exact ⟨i1, i2, S2, .cons h3 i3, i4⟩

end Bm.Bmi
