import Verif.Lemmas.P4dbg

/-!
# The tool and the debugger: steps of the switch
-/

namespace Bm.P4dbg

open Bm.Debugger.Spec (Pid Pkt Req Msg Vis attached pending inside value places watching breaksIn stopsIn chosen
  ctrField report bytes4 answer)
open Bm.P4dbg.Spec

/-! ## What steps of the switch leave alone -/

theorem say_keeps {s s' : Debugger.State} {m : Msg} (h : Debugger.say s m = .ok s') :
    s'.phase = s.phase ∧ s'.reqId = s.reqId := by
  unfold Debugger.say at h
  split at h
  · cases h
  · split at h
    · cases h
    · cases h; exact ⟨rfl, rfl⟩

theorem update_keeps {s s' : Debugger.State} {p : Pid} {id : Nat} {b : Bytes} (h : Debugger.update s p id b = .ok s') :
    s'.phase = s.phase ∧ s'.reqId = s.reqId := by
  unfold Debugger.update at h
  split at h
  · cases h
  · dsimp only at h
    split at h
    · have := say_keeps h; exact this
    · cases h; exact ⟨rfl, rfl⟩

theorem pkt_keeps {s s' : Debugger.State} {e : Pkt} (h : Debugger.step s (.pkt e) = .ok s') :
    s'.phase = s.phase ∧ s'.reqId = s.reqId := by
  simp only [Debugger.step, Debugger.pkt] at h
  cases e with
  | enter p port =>
    simp only at h
    split at h
    · unfold Debugger.enter at h
      split at h
      · cases h
      · dsimp only at h
        split at h
        · have := say_keeps h; exact this
        · cases h; exact ⟨rfl, rfl⟩
    · cases h
  | leave p =>
    simp only at h
    split at h
    · unfold Debugger.leave at h
      split at h
      · cases h
      · cases h; exact ⟨rfl, rfl⟩
    · cases h
  | upd p id b =>
    simp only at h
    split at h
    · exact update_keeps h
    · cases h
  | ctr p v =>
    simp only at h
    split at h
    · unfold Debugger.counter at h
      split at h
      · cases h
      · split at h
        · split at h
          · cases h
          · have := update_keeps h; exact this
        · have := update_keeps h; exact this
    · cases h

/-- A step of the switch with what is seen of it. -/
theorem sw_ok {P : Program} {s : Debugger.State} {m : Mode} {h : List Vis} {u : List UVis} (i : SI P s m h u)
    {a : Debugger.Act} {m' : Mode} {v : List UVis} {x : Debugger.State × Mode × List UVis}
    (hp : ∀ w, Debugger.vis s a = some w → Bm.Debugger.Spec.Polite h w) (hs : sw s m' a v = some x) :
    ∃ s', x = (s', m', v) ∧ Debugger.step s a = .ok s' ∧ Debugger.Run s' (Debugger.hist s a h) := by
  unfold sw at hs
  cases hd : Debugger.step s a with
  | ok s' =>
    rw [hd] at hs
    cases hs
    exact ⟨s', rfl, rfl, .step a i.run hd hp⟩
  | bad => exact absurd hd ((Debugger.C95_partial i.run).2.1 a hp)
  | blocked => rw [hd] at hs; cases hs

/-! ## Requests -/

theorem asked_polite {P : Program} {u0 : List UVis} {c : Cmd} {r : Req} {h : List Vis} (hE : Env P h)
    (ha : attached h = true) (hq : Asked P u0 c r) (n : Nat) : Bm.Debugger.Spec.Polite h (.req n r) := by
  cases c <;> simp only [Asked] at hq
  case reset => subst hq; trivial
  case setWp f => obtain ⟨id, -, rfl⟩ := hq; exact ha
  case unsetWp f => obtain ⟨id, -, -, rfl⟩ := hq; trivial
  case brk t o => obtain ⟨-, -, rfl⟩ := hq; exact ha
  case print p f => obtain ⟨q, id, -, -, rfl, -⟩ := hq; trivial
  case bt p => obtain ⟨q, -, rfl, -⟩ := hq; exact hE.depth q
  case breakIn => subst hq; exact ha
  case removeIn => obtain ⟨rfl, -⟩ := hq; trivial
  case stopIn => subst hq; exact ha
  case resumeIn => obtain ⟨rfl, -⟩ := hq; trivial

theorem before_polite {P : Program} {t : Tool} {c : Cmd} {r : Req} {h : List Vis} {u : List UVis} (hE : Env P h)
    (hb : Before P t c r h u) (n : Nat) : Bm.Debugger.Spec.Polite h (.req n r) := by
  rcases hb with ⟨-, rfl, -⟩ | ⟨-, rfl, -⟩ | ⟨hg, rfl, ha, -⟩ | ⟨-, -, -, ha, u0, -, -, -, hq⟩
  · trivial
  · trivial
  · cases c <;> first | (cases hg; done) | exact ha
  · exact asked_polite hE ha hq n

theorem HU.req {P : Program} {h : List Vis} {u : List UVis} (i : HU P h u) (n : Nat) (c : Cmd) :
    HU P (.req n (goReq c) :: h) u := by
  cases c <;> exact ⟨by simpa [goReq, watching, Bm.Debugger.Spec.clears] using i.w1,
    by simpa [goReq, watching, Bm.Debugger.Spec.clears] using i.w2,
    by simpa [goReq, breaksIn, Bm.Debugger.Spec.clears] using i.b1,
    by simpa [goReq, stopsIn, Bm.Debugger.Spec.clears] using i.s1,
    by simpa [goReq, chosen, Bm.Debugger.Spec.clears] using i.ch⟩

theorem attached_go (n : Nat) (c : Cmd) (h : List Vis) : attached (.req n (goReq c) :: h) = attached h := by
  cases c <;> rfl

theorem before_after {P : Program} {t : Tool} {c : Cmd} {r : Req} {h : List Vis} {u : List UVis}
    (hb : Before P t c r h u) (n : Nat) : After P t c r n h (.req n r :: h) u := by
  rcases hb with ⟨rfl, rfl, ha, hu, ht⟩ | ⟨rfl, rfl, ha⟩ | ⟨hg, rfl, ha, hT, hH, hS⟩ | ⟨hg, h1, h2, ha, u0, hu, hT, hH, hq⟩
  · exact .inl ⟨rfl, rfl, rfl, ha, hu, ht⟩
  · exact .inr (.inl ⟨rfl, rfl, rfl⟩)
  · refine .inr (.inr (.inl ⟨hg, rfl, ?_, hT, hH.req n c, .inr ⟨?_, hS⟩⟩))
    · rw [attached_go]; exact ha
    · intro e h1 hx; cases hx
  · exact .inr (.inr (.inr ⟨hg, h1, h2, rfl, ha, u0, hu, hT, hH, hq⟩))

theorem dispatch_step {P : Program} {s : Debugger.State} {m : Mode} {h : List Vis} {u : List UVis} (i : SI P s m h u)
    {x : Debugger.State × Mode × List UVis} (hs : step P s m .dispatch = some x) :
    ∃ h', SI P x.1 x.2.1 h' (x.2.2 ++ u) := by
  have blocked : (∀ r, s.phase ≠ .got r) → False := by
    intro hn
    simp only [step, sw, Debugger.step] at hs
    cases hp : s.phase with
    | got r => exact hn r hp
    | idle => simp [hp] at hs
    | waiting => simp [hp] at hs
  have hm := i.mi
  cases m with
  | dead => exact hm.elim
  | off => exact (blocked fun r hr => by rw [hm.2.2] at hr; cases hr).elim
  | prompt t => exact (blocked fun r hr => by rw [hm.2.2.2.1] at hr; cases hr).elim
  | sending t c b => exact (blocked fun r hr => by rw [hm.2.2.1] at hr; cases hr).elim
  | busy t c b =>
    obtain ⟨h1, h2, h3, n, r, h4, h5, h6⟩ := hm
    rcases h6 with ⟨hp, hn, hb⟩ | ⟨hp, -⟩
    · have hv : Debugger.vis s .dispatch = some (.req n r) := by simp only [Debugger.vis, hp, hn]
      simp only [step] at hs
      obtain ⟨s', rfl, hd, hr⟩ := sw_ok i (by
        intro w hw; rw [hv] at hw; cases hw; exact before_polite i.env hb n) hs
      have hh : Debugger.hist s .dispatch h = .req n r :: h := by simp only [Debugger.hist, hv]
      rw [hh] at hr
      have hph : s'.phase = .waiting := by
        simp only [Debugger.step, hp] at hd
        cases hx : Debugger.dispatch s r with
        | ok s1 => rw [hx] at hd; cases hd; rfl
        | bad => rw [hx] at hd; cases hd
        | blocked => rw [hx] at hd; cases hd
      exact ⟨_, ⟨hr, i.same, i.env.same (by intro e; simp), ⟨h1, h2, h3, n, r, h4, h5, .inr ⟨hph, h, rfl, before_after hb n⟩⟩, i.good⟩⟩
    · exact (blocked fun r hr => by rw [hp] at hr; cases hr).elim

theorem timeout_step {P : Program} {s : Debugger.State} {m : Mode} {h : List Vis} {u : List UVis} (i : SI P s m h u)
    {x : Debugger.State × Mode × List UVis} (hs : step P s m .timeout = some x) :
    ∃ h', SI P x.1 x.2.1 h' (x.2.2 ++ u) := by
  simp only [step] at hs
  obtain ⟨s', rfl, hd, hr⟩ := sw_ok i (by intro w hw; cases hw) hs
  have hph : s.phase = .waiting ∧ s'.phase = .waiting := by
    simp only [Debugger.step] at hd
    split at hd
    · rename_i hp _
      exact ⟨hp, (say_keeps hd).1.trans hp⟩
    · cases hd
  refine ⟨h, ⟨hr, i.same, i.env, ?_, i.good⟩⟩
  have hm := i.mi
  cases m with
  | dead => exact hm.elim
  | off => have := hm.2.2; rw [hph.1] at this; cases this
  | prompt t => have := hm.2.2.2.1; rw [hph.1] at this; cases this
  | sending t c b => have := hm.2.2.1; rw [hph.1] at this; cases this
  | busy t c b =>
    obtain ⟨h1, h2, h3, n, r, h4, h5, h6⟩ := hm
    rcases h6 with ⟨hp, -⟩ | ⟨hp, h0, h7, h8⟩
    · rw [hph.1] at hp; cases hp
    · exact ⟨h1, h2, h3, n, r, h4, h5, .inr ⟨hph.2, h0, h7, h8⟩⟩

theorem on_pkt (e : Pkt) (u : List UVis) : on (.pkt e :: u) = on u := rfl

/-- No packet moves while the client is attached and does not wait for it. -/
theorem held {s : Debugger.State} {h : List Vis} {e : Pkt} (r : Debugger.Run s (.pkt e :: h)) (ha : attached h = true) :
    (∃ n q h0, pending h = some (n, q, h0) ∧ (q = .cont ∨ q = .next)) ∧ ¬ Bm.Debugger.Spec.Stopped h ∧
    (∀ p port, e = .enter p port → stopsIn h = true → ∃ c, inside (p.1, c) h = true) := by
  have g := (Debugger.C95_partial r).1
  cases g with
  | pkt g hr hi =>
    rcases hr with hr | ⟨⟨n, q, h0, h1, h2⟩, h3⟩
    · rw [ha] at hr; cases hr
    · exact ⟨⟨n, q, h0, h1, h2⟩, h3, hi⟩

theorem idle_pending {s : Debugger.State} {h : List Vis} (r : Debugger.Run s h) (hp : s.phase ≠ .waiting) : pending h = none := by
  have c := (Debugger.run_inv r).c.ph
  unfold Debugger.PhaseOk at c
  split at c
  · exact c.1
  · exact c.1
  · rename_i h1; exact absurd h1 hp

/-- What the user wants is what the switch was asked to stop at. -/
theorem wants_stops {P : Program} (ok : P.Ok) {t : Tool} {h h1 : List Vis} {u : List UVis} {e : Pkt} {c : Cmd} {n : Nat}
    {h0 : List Vis} (hH : HU P h u) (hh : h = .pkt e :: h1) (hE : Env P h) (hp : pend u = some c)
    (hq : pending h = some (n, goReq c, h0)) (hg : goes c = true) (hT : TU P t u) (hw : Wants P u e) :
    Bm.Debugger.Spec.Stops h1 e := by
  subst hh
  have hch : chosen h1 = [] := hH.ch
  refine ⟨by rw [hch]; exact .inl rfl, ?_⟩
  have hx : pend u = some .next → Bm.Debugger.Spec.AwaitsNext h1 := by
    intro hn
    rw [hp] at hn; cases hn
    exact ⟨n, h0, hq⟩
  cases e with
  | leave p => exact hw.elim
  | enter p port =>
    rcases hw.2 with h2 | h2
    · exact .inl (hx h2)
    · exact .inr (hH.b1.mpr h2)
  | upd p id b =>
    rcases hw.2 with h2 | h2
    · exact .inl (hx h2)
    · obtain ⟨⟨f, hf⟩, -⟩ := (hE.ev _ List.mem_cons_self).2.2
      have := named_lt ok hf
      exact .inr ((hH.w1 id (by unfold ctrField; omega)).mpr h2)
  | ctr p v =>
    rcases hw.2 with h2 | h2
    · exact .inl (hx h2)
    · exact .inr (hH.w2 v h2)

theorem fits_pk {P : Program} {h : List Vis} {u : List UVis} (hs : pk h = pkts u) {e : Pkt} (hf : Fits P u e) :
    Bm.Debugger.Spec.Polite h (.pkt e) ∧ FitP P e ∧ ∀ p v, e = .ctr p v → (places p h).length < 54 := by
  obtain ⟨h1, h2, h3, h4⟩ := hf
  have hpl : Bm.Debugger.Spec.Polite h (.pkt e) := by
    rw [← hs] at h1
    cases e <;> simpa only [Bm.Debugger.Spec.Polite, inside_pk, places_pk] using h1
  refine ⟨hpl, ⟨h2, h3, ?_⟩, ?_⟩
  · cases e with
    | enter p port => exact h4
    | leave p => trivial
    | upd p id b => exact ⟨h4, hpl.2⟩
    | ctr p v => exact ⟨h4.1, hpl.2.1⟩
  · rintro p v rfl
    have := h4.2
    rwa [← hs, places_pk] at this

theorem off_pend {P : Program} {I : List UVis → Prop} {u : List UVis} (g : Good P I u) :
    on u = false → ∀ c, pend u = some c → False := by
  induction g with
  | nil => intro _ c hc; cases hc
  | up _ _ => intro ho; cases ho
  | cmd _ ho' _ =>
    intro ho
    have := ho'.symm.trans ho
    cases this
  | intr _ hc' _ ih => intro ho c hc; exact ih ho c hc
  | pkt _ _ _ ih => intro ho c hc; exact ih ho c hc
  | attached _ _ => intro _ c hc; cases hc
  | bye _ _ => intro _ c hc; cases hc
  | answer _ _ _ _ _ => intro _ c hc; cases hc
  | event _ _ _ _ _ => intro _ c hc; cases hc
  | stopped _ _ _ _ _ => intro _ c hc; cases hc

theorem pkt_step {P : Program} (ok : P.Ok) {s : Debugger.State} {m : Mode} {h : List Vis} {u : List UVis} (i : SI P s m h u)
    {e : Pkt} (hf : Fits P u e) {x : Debugger.State × Mode × List UVis} (hs : step P s m (.pkt e) = some x) :
    ∃ h', SI P x.1 x.2.1 h' (x.2.2 ++ u) := by
  obtain ⟨hpol, hfit, hdep⟩ := fits_pk i.same hf
  simp only [step] at hs
  obtain ⟨s', rfl, hd, hr⟩ := sw_ok i (by intro w hw; cases hw; exact hpol) hs
  have hk := pkt_keeps hd
  have hr' : Debugger.Run s' (.pkt e :: h) := hr
  refine ⟨.pkt e :: h, ?_⟩
  suffices key : MI P s' (.pkt e :: h) (.pkt e :: u) m ∧ Free P u ∧
      ((∃ c, pend u = some c ∧ goes c = true) → ∀ p port, e = .enter p port → StopsIn u →
        ∃ c, inside (p.1, c) (pkts u) = true) from
    ⟨hr', by simp only [pk, i.same, List.cons_append, List.nil_append, pkts], i.env.pkt ok hfit hdep, key.1, .pkt i.good key.2.1 key.2.2⟩
  have hm := i.mi
  have busyless : attached h = true → pending h = none → False := by
    intro ha hp
    obtain ⟨⟨n, q, h0, h1, -⟩, -⟩ := held hr' ha
    rw [hp] at h1; cases h1
  cases m with
  | dead => exact hm.elim
  | off =>
    obtain ⟨h1, h2, h3⟩ := hm
    refine ⟨⟨h1, h2, hk.1.trans h3⟩, .inl h1, ?_⟩
    rintro ⟨c, hc, hg⟩
    exact (off_pend i.good h1 c hc).elim
  | prompt t =>
    obtain ⟨h1, h2, h3, h4, -⟩ := hm
    exact (busyless h3 (idle_pending i.run (by rw [h4]; simp))).elim
  | sending t c b =>
    obtain ⟨h1, h2, h3, h4, n, r, h5, h6, hb⟩ := hm
    have hpn := idle_pending i.run (by rw [h3]; simp)
    rcases hb with ⟨rfl, rfl, ha, hu, ht⟩ | ⟨-, -, ha⟩ | ⟨-, -, ha, -⟩ | ⟨-, -, -, ha, -⟩
    · refine ⟨⟨h1, h2, hk.1.trans h3, ?_, n, _, h5, h6, .inl ⟨rfl, rfl, ha, hu, ht⟩⟩, .inr (.inl h2), ?_⟩
      · exact Nat.le_succ_of_le h4
      · rintro ⟨c, hc, hg⟩; rw [h2] at hc; cases hc; cases hg
    · exact (busyless ha hpn).elim
    · exact (busyless ha hpn).elim
    · exact (busyless ha hpn).elim
  | busy t c b =>
    obtain ⟨h1, h2, h4, n, r, h5, h6, hb⟩ := hm
    rcases hb with ⟨h3, h7, hb⟩ | ⟨h3, h0, h7, hb⟩
    · have hpn := idle_pending i.run (by rw [h3]; simp)
      rcases hb with ⟨rfl, rfl, ha, hu, ht⟩ | ⟨-, -, ha⟩ | ⟨-, -, ha, -⟩ | ⟨-, -, -, ha, -⟩
      · refine ⟨⟨h1, h2, ?_, n, _, h5, h6, .inl ⟨hk.1.trans h3, hk.2.trans h7, .inl ⟨rfl, rfl, ha, hu, ht⟩⟩⟩, .inr (.inl h2), ?_⟩
        · exact Nat.le_succ_of_le h4
        · rintro ⟨c, hc, hg⟩; rw [h2] at hc; cases hc; cases hg
      · exact (busyless ha hpn).elim
      · exact (busyless ha hpn).elim
      · exact (busyless ha hpn).elim
    · rcases hb with ⟨rfl, rfl, hh, ha, hu, ht⟩ | ⟨rfl, rfl, ha⟩ | ⟨hg, rfl, ha, hT, hH, htop⟩ | ⟨hg, hc1, hc2, hh, ha, u0, hu, hT, hH, hq⟩
      · obtain ⟨⟨n', q, h0', e1, e2⟩, -⟩ := held hr' (by rw [hh]; rfl)
        rw [h7] at e1; cases e1
        rcases e2 with e2 | e2 <;> cases e2
      · refine ⟨⟨h1, h2, ?_, n, _, h5, h6, .inr ⟨hk.1.trans h3, h0, h7, .inr (.inl ⟨rfl, rfl, ha⟩)⟩⟩, .inr (.inr (.inl h2)), ?_⟩
        · exact Nat.le_succ_of_le h4
        · rintro ⟨c, hc, hg⟩; rw [h2] at hc; cases hc; cases hg
      · obtain ⟨-, hns, hin⟩ := held hr' ha
        have hnostop : ∀ e', ¬ Stop P u e' := by
          intro e' he'
          rcases htop with ⟨e0, h1', u1, hh, hst⟩ | ⟨-, hS⟩
          · rw [stop_strip hst] at he'
            have := wants_stops ok hH hh i.env h2 h7 hg hT he'.2
            rw [hh] at hns
            exact hns this
          · exact hS e' he'
        refine ⟨⟨h1, h2, ?_, n, _, h5, h6, .inr ⟨hk.1.trans h3, h0, h7, .inr (.inr (.inl ⟨hg, rfl, ha, hT.pkt e, hH.pkt e, .inl ⟨e, h, u, rfl, rfl⟩⟩))⟩⟩,
          .inr (.inr (.inr ⟨⟨c, h2, hg⟩, hnostop⟩)), ?_⟩
        · exact Nat.le_succ_of_le h4
        · intro _ p port he hst
          obtain ⟨c', hc'⟩ := hin p port he (hH.s1.mpr hst)
          exact ⟨c', by rw [← i.same, inside_pk]; exact hc'⟩
      · have hat : attached h = true := by
          rw [hh]
          cases r <;> first | exact ha | rfl | skip
          · cases c <;> simp [Asked] at hq
        obtain ⟨⟨n', q, h0', e1, e2⟩, -⟩ := held hr' hat
        rw [h7] at e1; cases e1
        rcases e2 with rfl | rfl
        · cases c <;> simp [Asked] at hq
        · cases c <;> simp [Asked] at hq

theorem cfg_step {P : Program} {s : Debugger.State} {m : Mode} {h : List Vis} {u : List UVis} (i : SI P s m h u)
    (ho : on u = false) {x : Debugger.State × Mode × List UVis} (hs : step P s m .cfg = some x) :
    ∃ h', SI P x.1 x.2.1 h' (x.2.2 ++ u) := by
  have hm := i.mi
  cases m with
  | dead => exact hm.elim
  | prompt t => rw [hm.1] at ho; cases ho
  | sending t c b => rw [hm.1] at ho; cases ho
  | busy t c b => rw [hm.1] at ho; cases ho
  | off =>
    obtain ⟨h1, h2, h3⟩ := hm
    simp only [step] at hs
    obtain ⟨s', rfl, hd, hr⟩ := sw_ok i (by intro w hw; cases hw; exact h2) hs
    have ha : s.attached = false := (Debugger.run_inv i.run).c.att.trans h2
    have hss : s' = s := by
      simp only [Debugger.step, Debugger.cfg, ha] at hd
      cases hd; rfl
    subst hss
    exact ⟨.cfg :: h, ⟨hr, i.same, i.env.same (by intro e; simp), ⟨h1, h2, h3⟩, i.good⟩⟩

end Bm.P4dbg
