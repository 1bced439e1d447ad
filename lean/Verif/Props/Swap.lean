import Verif.Lemmas.Swap

/-!
# C76: exchanging the configuration of a running switch
-/

namespace Bm.Swap

open Spec

variable {C : Type}

/-- Everything reached from a new switch satisfies the invariant. -/
theorem reached {x : C} {n m : Nat} {ls : List (Label C)} (hl : ∀ l ∈ ls, Allowed n l) {s : Sw C} {rs}
    {r : Option (Nat × Code)} (h : (Sw.new x n m).run ls = some (.ok s r, rs)) : Inv n s := by
  rcases run_ind (P := Inv n) (Q := Allowed n) (fun s l s' h1 h2 h3 => inv_step h1 h2 h3) ls _ (inv_new x n m) hl h with
    ⟨s', e, h1⟩ | ⟨e, _⟩
  · cases e
    exact h1
  · cases e

/-- **C76 (partial)**: a packet is processed by one configuration.  Whatever any number of threads loading and
exchanging configurations do, and whenever packets are created, cloned and destroyed: every packet alive has a header
vector made for the configuration its context processes packets with.  Partial: if there are several contexts, packets
(and clones) must not move from one context to another (`C76_change_context`). -/
theorem C76_one_config_partial {x : C} {n m : Nat} {ls : List (Label C)} (hl : ∀ l ∈ ls, Allowed n l) {s : Sw C} {rs}
    {r : Option (Nat × Code)} (h : (Sw.new x n m).run ls = some (.ok s r, rs)) :
    ∀ k ∈ s.packets, Uses s k.cxt k.phv :=
  fun _ hk => packet_cur (reached hl h) hk

/-- **C76 (partial)**: no step changes the configuration of a context while a packet is in it. -/
theorem C76_in_use_partial {x : C} {n m : Nat} {ls : List (Label C)} (hl : ∀ l ∈ ls, Allowed n l) {s : Sw C} {rs}
    {r : Option (Nat × Code)} (h : (Sw.new x n m).run ls = some (.ok s r, rs)) {l : Label C} (ha : Allowed n l)
    {s' : Sw C} {r'} (hs : s.step l = some (.ok s' r')) {k : Pkt C} (hk : k ∈ s.packets) (hk' : k ∈ s'.packets)
    {y : C} : Uses s k.cxt y ↔ Uses s' k.cxt y := by
  have hi := reached hl h
  have hi' : Inv n s' := by
    rcases step_cases hs with ⟨e, _⟩ | ⟨s2, r2, e, h2⟩
    · cases e
    · cases e
      exact inv_step hi ha h2
  obtain ⟨c, hc, e⟩ := packet_cur hi hk
  obtain ⟨c', hc', e'⟩ := packet_cur hi' hk'
  constructor
  · rintro ⟨d, hd, rfl⟩
    rw [hc] at hd
    cases hd
    exact ⟨c', hc', by rw [e, e']⟩
  · rintro ⟨d, hd, rfl⟩
    rw [hc'] at hd
    cases hd
    exact ⟨c, hc, by rw [e, e']⟩

/-- **C76 (partial)**: with one thread calling `swap_configs`, no assertion fails. -/
theorem C76_no_abort_partial {x : C} {n m t0 : Nat} (hn : 0 < n) {ls : List (Label C)}
    (hl : ∀ l ∈ ls, Allowed n l) (h1 : ∀ l ∈ ls, OneSwapper t0 l) {o : Out C} {rs}
    (h : (Sw.new x n m).run ls = some (o, rs)) : o ≠ .bad := by
  rcases run_ind (P := fun s => Inv n s ∧ OneInv t0 s) (Q := fun l => Allowed n l ∧ OneSwapper t0 l)
    (fun s l s' h1 h2 h3 => ⟨inv_step h1.1 h2.1 h3, one_step h1.2 h2.2 h3⟩) ls _ ⟨inv_new x n m, one_new t0 x n m⟩
    (fun l hm => ⟨hl l hm, h1 l hm⟩) h with ⟨s', e, _⟩ | ⟨_, s1, l, h2, _, h3⟩
  · rw [e]
    simp
  · exact (no_failure hn h2.1 h2.2 h3).elim

/-- **C76 (partial)**: with one context and one thread loading configurations, what `get_config` returns while no
thread is in `load_new_config` is the configuration loaded last: the one packets are processed with, or the one that
waits for `swap_configs`. -/
theorem C76_get_config_partial {x : C} {m t0 : Nat} {ls : List (Label C)} (h1 : ∀ l ∈ ls, OneLoader t0 l) {s : Sw C}
    {rs} {r : Option (Nat × Code)} (h : (Sw.new x 1 m).run ls = some (.ok s r, rs))
    (hq : ∀ pc ∈ s.threads, ¬ InLoad pc) {k : Cxt C} (hk : s.cxts[0]? = some k) :
    (k.rt = none → s.current = k.cur) ∧ ∀ y, k.rt = some y → s.current = y := by
  rcases run_ind (P := fun s => s.cxts.length = 1 ∧ CfgInv t0 s) (Q := OneLoader t0)
    (fun s l s' h1 h2 h3 => ⟨(step_len h3).trans h1.1, cfg_step h1.1 h1.2 h2 h3⟩) ls _
    ⟨by simp [Sw.new], cfg_new t0 x m⟩ h1 h with ⟨s', e, _, h2⟩ | ⟨e, _⟩
  · cases e
    have hno : (s.threads[t0]?.getD .idle).noLoad = true := by
      cases ht : s.threads[t0]? with
      | none => rfl
      | some pc =>
        have := hq pc (List.mem_of_getElem? ht)
        cases pc <;> simp [InLoad] at this <;> rfl
    have h3 := (cfg_noLoad hno).1 h2.cfg
    simp only [Sw.last, hk, Option.map_some, Option.some.injEq] at h3
    constructor
    · intro e
      rw [e] at h3
      exact h3.symm
    · intro y e
      rw [e] at h3
      exact h3.symm
  · cases e

/-- One thread loads a configuration and exchanges it, in a switch with one context and no packet. -/
def exchange (y : C) : List (Label C) :=
  [.load 0 y, .go 0, .go 0, .go 0, .swap 0, .go 0, .go 0, .go 0, .go 0, .go 0, .go 0, .go 0, .go 0, .go 0]

/-- **C76**: a configuration that is loaded and exchanged is the one packets are processed with from then on.  `y` is
any text, also one that `init_objects` rejects: nothing else can be done with it (`C76_no_way_back`). -/
theorem C76_exchange (x y : C) (m : Nat) : ∃ s, (Sw.new x 1 (m + 1)).run (exchange y) =
      some (.ok s none, [(0, .success), (0, .success)]) ∧ Uses s 0 y ∧ s.current = y ∧ s.packets = [] ∧
      s.cfgMutex = false ∧ s.pktMutex = false ∧ s.step (.newPacket 0) =
        some (.ok { s with packets := [⟨0, y⟩], pools := [⟨y, [], 1⟩] } none) := by
  refine ⟨_, rfl, ⟨_, rfl, rfl⟩, rfl, rfl, rfl, rfl, rfl⟩

/-- Once a configuration is loaded it cannot be replaced by another: the next `load_new_config` fails. -/
theorem C76_no_way_back (x y z : C) : ((Sw.new x 1 1).run
      [.load 0 y, .go 0, .go 0, .go 0, .load 0 z, .go 0]).map (·.2) = some [(0, .success), (0, .ongoing)] := rfl

/-- `get_config` returns the new configuration before it is used: packets are still processed with the old one. -/
theorem C76_get_config_early : ∃ s rs, (Sw.new 1 1 1).run [.newPacket 0, .load 0 2, .go 0, .go 0, .go 0] =
    some (.ok s none, rs) ∧ s.current = 2 ∧ Uses s 0 1 ∧ s.packets = [⟨0, 1⟩] :=
  ⟨_, _, rfl, rfl, ⟨_, rfl, rfl⟩, rfl⟩

/-- Two threads in `swap_configs` at the same time: the assertion in `swap_configs` fails for the second. -/
theorem C76_overlap : ∃ ls, (∀ l ∈ ls, Allowed 1 l) ∧
    (Sw.new 1 1 2).run ls = some (.bad, [(0, .success), (0, .success)]) := by
  refine ⟨[.load 0 2, .go 0, .go 0, .go 0, .swap 0, .go 0, .swap 1, .go 1, .go 0, .go 1, .go 0, .go 0, .go 0, .go 0,
    .go 0, .go 0, .go 0, .go 1, .go 1], fun _ _ => .inl rfl, by decide +kernel⟩

/-- Two contexts: a packet that comes from another context after context 0 was found empty makes the assertion in
`set_phv_factory` fail, with one thread. -/
theorem C76_change_context : ∃ ls, (∀ l ∈ ls, OneSwapper 0 l) ∧
    (Sw.new 1 2 1).run ls = some (.bad, [(0, .success)]) := by
  refine ⟨[.newPacket 1, .load 0 2, .go 0, .go 0, .go 0, .go 0, .swap 0, .go 0, .go 0, .go 0, .go 0, .go 0, .go 0,
    .go 0, .change 0 0, .go 0, .go 0], ?_, ?_⟩
  · intro l hl t e
    subst e
    simpa using hl
  · decide +kernel

/-- Two contexts: a packet whose header vector was made for a configuration is processed with another. -/
theorem C76_mixed : ∃ ls s rs, (∀ l ∈ ls, OneSwapper 0 l) ∧ (Sw.new 1 2 1).run ls = some (.ok s none, rs) ∧
    ∃ k ∈ s.packets, ¬ Uses s k.cxt k.phv := by
  refine ⟨[.newPacket 1, .load 0 2, .go 0, .go 0, .go 0, .go 0, .swap 0, .go 0, .go 0, .go 0, .go 0, .go 0, .go 0,
    .go 0, .change 0 0, .go 0], _, _, ?_, rfl, ⟨0, 1⟩, by decide +kernel, ?_⟩
  · intro l hl t e
    subst e
    simpa using hl
  · rintro ⟨k, hk, e⟩
    have hk' : some (⟨2, none, false⟩ : Cxt Nat) = some k := hk
    cases hk'
    cases e

/-- Two contexts: `load_new_config` called while configurations are being exchanged leaves the contexts out of step;
from then on no call of `load_new_config` and of `swap_configs` succeeds, whatever is done. -/
theorem C76_stuck : ∃ ls s rs, (∀ l ∈ ls, Allowed 2 l ∧ OneSwapper 0 l ∧ OneLoader 1 l) ∧
    (Sw.new 1 2 2).run ls = some (.ok s none, rs) ∧ (∀ pc ∈ s.threads, pc = .idle) ∧
    ∀ ls' o rs', s.run ls' = some (o, rs') → ∀ t, (t, Code.success) ∉ rs' := by
  refine ⟨[.load 1 2, .go 1, .go 1, .go 1, .go 1, .swap 0, .go 0, .go 0, .go 0, .go 0, .go 0, .go 0, .go 0, .go 0,
    .go 0, .load 1 3, .go 1, .go 1, .go 0, .go 0, .go 0, .go 0], _, _, ?_, rfl, by decide +kernel, ?_⟩
  · intro l hl
    refine ⟨.inr ?_, ?_, ?_⟩
    · simp only [List.mem_cons, List.not_mem_nil, or_false] at hl
      rcases hl with rfl | rfl | rfl | rfl | rfl | rfl | rfl | rfl | rfl | rfl | rfl | rfl | rfl | rfl | rfl | rfl |
        rfl | rfl | rfl | rfl | rfl | rfl <;> trivial
    · intro t e
      subst e
      simpa using hl
    · intro t j e
      subst e
      simp at hl
      omega
  · intro ls' o rs' h
    refine stuck_run ls' _ ?_ h
    exact ⟨⟨_, _, rfl, rfl⟩, ⟨_, rfl, rfl⟩, by decide +kernel⟩

/-- A run that meets the hypotheses of the theorems: a packet and its clone are alive while another configuration is
loaded, and the thread that swaps waits for them; then a packet gets the new configuration. -/
example : ∃ ls s rs, (∀ l ∈ ls, Allowed 1 l ∧ OneSwapper 0 l ∧ OneLoader 0 l) ∧
    (Sw.new 1 1 1).run ls = some (.ok s none, rs) ∧ s.packets = [⟨0, 2⟩] ∧ rs = [(0, .success), (0, .success)] := by
  refine ⟨[.newPacket 0, .load 0 2, .go 0, .clone 0, .go 0, .go 0, .swap 0, .go 0, .go 0, .go 0, .go 0, .go 0,
    .destroy 0, .destroy 0, .go 0, .go 0, .go 0, .go 0, .newPacket 0], _, _, ?_, rfl, by decide +kernel, by decide +kernel⟩
  intro l hl
  refine ⟨.inl rfl, ?_, ?_⟩
  · intro t e
    subst e
    simpa using hl
  · intro t j e
    subst e
    simp at hl
    omega

/-- The thread does wait: with a packet alive it cannot go on. -/
example : ∃ ls s rs, (Sw.new 1 1 1).run ls = some (.ok s none, rs) ∧ s.step (.go 0) = none ∧
    s.threads = [.draining 0 true] ∧ s.step (.newPacket 0) = none :=
  ⟨[.newPacket 0, .load 0 2, .go 0, .go 0, .go 0, .swap 0, .go 0, .go 0, .go 0, .go 0, .go 0], _, _, rfl, rfl, rfl,
    rfl⟩

end Bm.Swap
