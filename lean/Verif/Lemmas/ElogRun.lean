import Verif.Lemmas.ElogPipe

/-!
# Lemmas on the events of histories, parsers and deparsers
-/

namespace Bm.Elog
open Spec Pipe MT

section
variable {kind : Nat → TableKind} {R σ : Type}

/-! ## Histories -/

theorem default_kept {K : Type} {P : TableDecl K} {sp : MatchSpec K} {size : Nat} {keyless : Bool} {s s' : AState K}
    {op : AOp K} {out : AOut K} (hd : P.dflt.isSome = true) (h : s.D ≠ none) (st : AStep P sp size keyless s op s' out) :
    s'.D ≠ none := by
  have h0 : P.default0 ≠ none := by
    rw [TableDecl.default0]
    cases hx : P.dflt with
    | none => rw [hx] at hd; cases hd
    | some d => rw [Option.map_some]; nofun
  cases op with
  | add k f data now =>
    rw [AStep] at st
    split at st
    · rw [st.1]; exact h
    · split at st
      · rw [st.1]; exact h
      · obtain ⟨_, _, e, _⟩ := st; rw [e]; exact h
  | delete x =>
    rw [AStep] at st
    split at st
    · rw [st.1]; exact h
    · obtain ⟨_, _, e, _⟩ := st; rw [e]; exact h
  | modify x f data =>
    rw [AStep] at st
    split at st
    · rw [st.1]; exact h
    · split at st
      · rw [st.1]; exact h
      · obtain ⟨_, _, e, _⟩ := st; rw [e]; exact h
  | setDefault f data =>
    rw [AStep] at st
    split at st
    · rw [st.1]; exact h
    · split at st
      · rw [st.1]; exact h
      · split at st
        · rw [st.1]; exact h
        · rw [st.1]; nofun
  | resetDefault => rw [st.1]; exact h0
  | get x => rw [st.1]; exact h
  | getByKey k => rw [st.1]; exact h
  | entries => rw [st.1]; exact h
  | getDefault => rw [st.1]; exact h
  | count => rw [st.1]; exact h
  | clear d =>
    rw [st.1]
    cases d
    · exact h
    · exact h0
  | apply q a b => rw [st.1]; exact h

/-- The switch after a history in which nothing undefined happens. -/
def after (sem : Sem σ) : Sw kind R σ → List (Op (KeyOf kind) σ) → Option (Sw kind R σ)
  | sw, [] => some sw
  | sw, op :: ops => do after sem (← sw.exec sem op).2 ops

theorem exec_rel (sem : Sem σ) {P : Prog (KeyOf kind) σ} {sw sw' : Sw kind R σ}
    {T : (n : Nat) → AState (KeyOf kind n)} (h : Rel sw P T) {op : Op (KeyOf kind) σ}
    (hop : op.Valid (fun n => (kind n).spec) P) {o} (e : sw.exec sem op = some (o, sw')) :
    ∃ T', Rel sw' P T' ∧ (Prog.Defaults P → HasDefaults P T → HasDefaults P T') := by
  cases op with
  | table n op =>
    obtain ⟨t, ht, hval⟩ := hop
    obtain ⟨tab, E, hn, hrep, hz1, hz2⟩ := h.node n _ ht
    obtain ⟨out, tab', s', E', e1, r1, z1, z2, st⟩ := hrep.exec op hval
    rw [hz1] at z1
    rw [hz2] at z2
    have : sw.exec sem (.table n op) = some (.table n out, sw.set n (.table t tab')) := by
      simp only [Sw.exec, hn, e1, Option.map_some]
    rw [this] at e
    cases e
    refine ⟨_, rel_table h ht r1 z1 z2, ?_⟩
    intro hdef hd m t' hm
    dsimp only
    by_cases hmn : m = n
    · subst hmn
      rw [dif_pos rfl]
      have u := has_unique h ht hm
      dsimp only at u
      subst u
      exact default_kept (hdef m t ht) (hd m t ht) st
    · rw [dif_neg hmn]
      exact hd m t' hm
  | packet pipe fuel s =>
    have hp : P[pipe]? = some P[pipe] := List.getElem?_eq_getElem hop
    have hf : sw.firsts[pipe]? = some P[pipe].first := by rw [h.firsts, List.getElem?_map, hp]; rfl
    rcases walk_ok sem fuel sw P[pipe].first s h (h.first _ (List.getElem_mem hop)) with
      ⟨k1, l, k2⟩ | ⟨l, r, sw2, k1, k2, k3, k4, k5⟩
    · simp only [Sw.exec, hf, Option.bind_eq_bind, Option.bind_some, k1, Option.bind_none] at e
      cases e
    · simp only [Sw.exec, hf, Option.bind_eq_bind, Option.bind_some, k1] at e
      cases e
      exact ⟨T, k2, fun _ hd => hd⟩

theorem after_rel (sem : Sem σ) {P : Prog (KeyOf kind) σ} :
    ∀ (ops : List (Op (KeyOf kind) σ)) {sw sw' : Sw kind R σ} {T : (n : Nat) → AState (KeyOf kind n)}, Rel sw P T →
      (∀ op ∈ ops, op.Valid (fun n => (kind n).spec) P) → after sem sw ops = some sw' →
      ∃ T', Rel sw' P T' ∧ (Prog.Defaults P → HasDefaults P T → HasDefaults P T')
  | [], sw, sw', T, h, _, e => by cases e; exact ⟨T, h, fun _ hd => hd⟩
  | op :: ops, sw, sw', T, h, hv, e => by
    rw [after] at e
    cases h1 : sw.exec sem op with
    | none => rw [h1] at e; cases e
    | some x =>
      obtain ⟨o, sw1⟩ := x
      rw [h1] at e
      obtain ⟨T1, k1, k2⟩ := exec_rel sem h (hv op (List.mem_cons_self ..)) h1
      obtain ⟨T2, k3, k4⟩ := after_rel sem ops k1 (fun o ho => hv o (List.mem_cons_of_mem _ ho)) e
      exact ⟨T2, k3, fun a b => k4 a (k2 a b)⟩

theorem start_defaults {P : Prog (KeyOf kind) σ} (hdef : Prog.Defaults P) {T : (n : Nat) → AState (KeyOf kind n)}
    (h : P.Start T) : HasDefaults P T := by
  intro n t ht
  rw [(h n t ht).1, TableDecl.default0]
  have := hdef n t ht
  cases hx : t.decl.dflt with
  | none => rw [hx] at this; cases this
  | some d => rw [Option.map_some]; nofun

end

/-! ## Parsers -/

section
open Parse

/-- Reports on headers. -/
abbrev told (hs : List Nat) : List Ev := hs.map fun (h : Nat) => Ev.extract h

theorem fixed_trace {pkt : Parse.Pkt} {st st' : St} {h : Nat} {len : Phv → Option Int} {e : Option Err}
    (k : extractFixed pkt st h len = some (st', e)) : st'.trace = st.trace ++ (if e = none then [h] else []) := by
  rw [extractFixed] at k
  cases h1 : nbytes st.phv h with
  | none => rw [h1] at k; cases k
  | some n =>
    rw [h1] at k
    simp only [Option.bind_eq_bind, Option.bind_some] at k
    split at k
    · cases k; simp
    · cases h2 : Parse.extractHdr st.phv h len (pkt.mem.drop st.pos) with
      | none => rw [h2] at k; cases k
      | some phv =>
        rw [h2] at k
        simp only [Option.bind_some] at k
        cases h3 : nbytes phv h with
        | none => rw [h3] at k; cases k
        | some m => rw [h3] at k; cases k; simp

theorem var_trace {pkt : Parse.Pkt} {st st' : St} {h max : Nat} {len : Phv → Option Int} {e : Option Err}
    (k : extractVar pkt st h len max = some (st', e)) : st'.trace = st.trace ++ (if e = none then [h] else []) := by
  rw [extractVar] at k
  cases h1 : len st.phv with
  | none => rw [h1] at k; cases k
  | some n =>
    rw [h1] at k
    simp only [Option.bind_eq_bind, Option.bind_some] at k
    split at k
    · cases k; simp
    · cases h2 : nbytes st.phv h with
      | none => rw [h2] at k; cases k
      | some m =>
        rw [h2] at k
        simp only [Option.bind_some] at k
        cases h3 : toSize (m + n / 8) with
        | none => rw [h3] at k; cases k
        | some x =>
          rw [h3] at k
          simp only [Option.bind_some] at k
          split at k
          · cases k; simp
          · split at k
            · cases k; simp
            · split at k
              · cases k
              · cases h4 : st.phv.extract h (pkt.mem.drop st.pos) n with
                | none => rw [h4] at k; cases k
                | some phv =>
                  rw [h4] at k
                  simp only [Option.bind_some] at k
                  cases h5 : nbytes phv h with
                  | none => rw [h5] at k; cases k
                  | some m => rw [h5] at k; cases k; simp

theorem next_trace {pkt : Parse.Pkt} {st st' : St} {h max : Nat} {len : Phv → Option Int} {e : Option Err}
    (k : extractNext pkt st h len max = some (st', e)) : st'.trace = st.trace ++ (if e = none then [h] else []) := by
  rw [extractNext] at k
  split at k
  · exact fixed_trace k
  · exact var_trace k

theorem push_trace {s : Nat} {r : Res} {st' : St} {e : Option Err} (k : pushStack s r = some (st', e)) :
    e = r.2 ∧ st'.trace = r.1.trace := by
  obtain ⟨st, e0⟩ := r
  cases e0 with
  | some x => cases k; exact ⟨rfl, rfl⟩
  | none =>
    simp only [pushStack, Option.bind_eq_bind, Option.bind_eq_some_iff, Option.pure_def] at k
    obtain ⟨a, -, b, -, k⟩ := k
    cases k
    exact ⟨rfl, rfl⟩

theorem pushU_trace {s : Nat} {r : Res} {st' : St} {e : Option Err} (k : pushUnionStack s r = some (st', e)) :
    e = r.2 ∧ st'.trace = r.1.trace := by
  obtain ⟨st, e0⟩ := r
  cases e0 with
  | some x => cases k; exact ⟨rfl, rfl⟩
  | none =>
    simp only [pushUnionStack, Option.bind_eq_bind, Option.bind_eq_some_iff, Option.pure_def] at k
    obtain ⟨a, -, b, -, k⟩ := k
    cases k
    exact ⟨rfl, rfl⟩

/-- One operation: at most one header is reported, and unless there is an error exactly what is extracted. -/
theorem op_trace {rz : Bool} {pkt : Parse.Pkt} {st st' : St} {op : Parse.Op} {e : Option Err}
    (k : op.exec rz pkt st = some (st', e)) :
    ∃ hs : List Nat, attempted st op = told hs ∧ hs.length ≤ 1 ∧
      st'.trace = st.trace ++ (if e = none then hs else []) := by
  cases op with
  | extract h len => exact ⟨[h], rfl, Nat.le_refl _, fixed_trace k⟩
  | extractVL h len max => exact ⟨[h], rfl, Nat.le_refl _, var_trace k⟩
  | extractStack s len max =>
    rw [Op.exec] at k
    cases h1 : st.phv.hstacks[s]? with
    | none => rw [h1] at k; cases k
    | some stk =>
      rw [h1] at k
      simp only [Option.bind_eq_bind, Option.bind_some] at k
      simp only [attempted, h1]
      split at k
      · rename_i hn
        cases k
        rw [if_pos hn]
        exact ⟨[], rfl, Nat.zero_le _, by simp⟩
      · rename_i hn
        rw [if_neg hn]
        cases h2 : stk.elements[stk.next]? with
        | none => rw [h2] at k; cases k
        | some h =>
          rw [h2] at k
          simp only [Option.bind_some] at k
          cases h3 : extractNext pkt st h len max with
          | none => rw [h3] at k; cases k
          | some r =>
            rw [h3] at k
            obtain ⟨k1, k2⟩ := push_trace k
            refine ⟨[h], rfl, Nat.le_refl _, ?_⟩
            rw [k2, k1]
            exact next_trace h3
  | extractUnionStack s i len max =>
    rw [Op.exec] at k
    cases h1 : st.phv.unionStacks[s]? with
    | none => rw [h1] at k; cases k
    | some stk =>
      rw [h1] at k
      simp only [Option.bind_eq_bind, Option.bind_some] at k
      simp only [attempted, h1]
      split at k
      · rename_i hn
        cases k
        rw [if_pos hn]
        exact ⟨[], rfl, Nat.zero_le _, by simp⟩
      · rename_i hn
        rw [if_neg hn]
        cases h2 : stk.elements[stk.next]? with
        | none => rw [h2] at k; cases k
        | some u =>
          rw [h2] at k
          simp only [Option.bind_some] at k ⊢
          cases h4 : st.phv.unions[u]? with
          | none => rw [h4] at k; cases k
          | some un =>
            rw [h4] at k
            simp only [Option.bind_some] at k ⊢
            cases h5 : un.members[i]? with
            | none => rw [h5] at k; cases k
            | some h =>
              rw [h5] at k
              simp only [Option.bind_some] at k
              cases h3 : extractNext pkt st h len max with
              | none => rw [h3] at k; cases k
              | some r =>
                rw [h3] at k
                obtain ⟨k1, k2⟩ := pushU_trace k
                refine ⟨[h], rfl, Nat.le_refl _, ?_⟩
                rw [k2, k1]
                exact next_trace h3
  | setLookahead h f l =>
    refine ⟨[], rfl, Nat.zero_le _, ?_⟩
    simp only [Op.exec, opSetLookahead, Option.bind_eq_bind] at k
    split at k
    · cases k; simp
    · simp only [Option.bind_eq_some_iff, Option.pure_def] at k
      obtain ⟨a, -, k⟩ := k
      cases k; simp
  | shift n =>
    refine ⟨[], rfl, Nat.zero_le _, ?_⟩
    simp only [Op.exec, opShift, Option.some.injEq] at k
    split at k <;> cases k <;> simp
  | advance bits =>
    refine ⟨[], rfl, Nat.zero_le _, ?_⟩
    simp only [Op.exec, opAdvance, Option.bind_eq_bind, Option.bind_eq_some_iff, Option.pure_def, Option.some.injEq] at k
    obtain ⟨a, -, k⟩ := k
    split at k
    · cases k; simp
    · split at k <;> cases k <;> simp
  | verify cond err =>
    refine ⟨[], rfl, Nat.zero_le _, ?_⟩
    simp only [Op.exec, opVerify, Option.bind_eq_bind, Option.bind_eq_some_iff] at k
    obtain ⟨a, -, k⟩ := k
    split at k
    · cases k; simp
    · simp only [Option.bind_eq_some_iff] at k
      obtain ⟨b, -, k⟩ := k
      cases k; simp
  | phvOp f =>
    refine ⟨[], rfl, Nat.zero_le _, ?_⟩
    simp only [Op.exec, Option.bind_eq_bind, Option.bind_eq_some_iff] at k
    obtain ⟨b, -, k⟩ := k
    cases k; simp

/-- What the events say about what was extracted: `hs` was extracted, `extra` was not. -/
def Says (st st' : St) (e : Option Err) (es : List Ev) : Prop :=
  ∃ hs extra : List Nat, es = told (hs ++ extra) ∧ st'.trace = st.trace ++ hs ∧ extra.length ≤ 1 ∧ (e = none → extra = [])

theorem ops_says {rz : Bool} {pkt : Parse.Pkt} : ∀ (ops : List Parse.Op) {st st' : St} {es : List Ev} {e : Option Err},
    opsEvents rz pkt st ops = some (es, st', e) → Says st st' e es
  | [], st, st', es, e, k => by cases k; exact ⟨[], [], rfl, by simp, Nat.zero_le _, fun _ => rfl⟩
  | op :: ops, st, st', es, e, k => by
    rw [opsEvents] at k
    cases h1 : op.exec rz pkt st with
    | none => rw [h1] at k; cases k
    | some r =>
      obtain ⟨st1, e1⟩ := r
      rw [h1] at k
      obtain ⟨hs, a1, a2, a3⟩ := op_trace h1
      cases e1 with
      | some x =>
        cases k
        refine ⟨[], hs, a1, ?_, a2, nofun⟩
        simpa using a3
      | none =>
        simp only [Option.bind_eq_bind, Option.bind_some] at k
        cases h2 : opsEvents rz pkt st1 ops with
        | none => rw [h2] at k; cases k
        | some y =>
          obtain ⟨es2, st2, e2⟩ := y
          rw [h2] at k
          cases k
          obtain ⟨hs2, ex, b1, b2, b3, b4⟩ := ops_says ops h2
          refine ⟨hs ++ hs2, ex, ?_, ?_, b3, b4⟩
          · rw [a1, b1]; simp [told]
          · rw [b2, a3]; simp

theorem opsEvents_erase {rz : Bool} {pkt : Parse.Pkt} : ∀ (ops : List Parse.Op) (st : St),
    (opsEvents rz pkt st ops).map Prod.snd = execOps rz pkt st ops
  | [], st => rfl
  | op :: ops, st => by
    rw [opsEvents, execOps]
    cases op.exec rz pkt st with
    | none => rfl
    | some r =>
      obtain ⟨st1, e1⟩ := r
      cases e1 with
      | some x => rfl
      | none =>
        simp only [Option.bind_eq_bind, Option.bind_some]
        rw [← opsEvents_erase ops st1]
        cases opsEvents rz pkt st1 ops <;> rfl

theorem stateEvents_erase {rz : Bool} {pkt : Parse.Pkt} (st : St) (s : PState) :
    (stateEvents rz pkt st s).map Prod.snd = s.next rz pkt st := by
  rw [stateEvents, PState.next, ← opsEvents_erase]
  cases opsEvents rz pkt st s.ops with
  | none => rfl
  | some x =>
    obtain ⟨es, st1, e⟩ := x
    cases e with
    | some y => rfl
    | none =>
      simp only [Option.bind_eq_bind, Option.bind_some, Option.map_some]
      cases s.sel with
      | none => rfl
      | some z =>
        dsimp only
        cases buildKey st1.phv (pkt.mem.drop st1.pos) z.1 with
        | none => rfl
        | some key =>
          simp only [Option.bind_some]
          cases choose key s.default z.2 <;> rfl

theorem state_says {rz : Bool} {pkt : Parse.Pkt} {st st' : St} {s : PState} {es : List Ev} {e : Option Err}
    {next : Option Nat} (k : stateEvents rz pkt st s = some (es, (st', e), next)) : Says st st' e es := by
  rw [stateEvents] at k
  cases h1 : opsEvents rz pkt st s.ops with
  | none => rw [h1] at k; cases k
  | some x =>
    obtain ⟨es1, st1, e1⟩ := x
    rw [h1] at k
    have := ops_says _ h1
    cases e1 with
    | some y => cases k; exact this
    | none =>
      simp only [Option.bind_eq_bind, Option.bind_some] at k
      cases h2 : s.sel with
      | none => rw [h2] at k; cases k; exact this
      | some z =>
        rw [h2] at k
        simp only [Option.bind_eq_some_iff, Option.pure_def] at k
        obtain ⟨a, -, b, -, k⟩ := k
        cases k
        exact this

theorem parseLoop_says {rz : Bool} {states : List PState} {pkt : Parse.Pkt} : ∀ (fuel : Nat) (start : Option Nat) {st st' : St}
    {es : List Ev} {e : Option Err}, parseLoop rz states pkt fuel start st = some (es, some (st', e)) → Says st st' e es
  | 0, none, st, st', es, e, k => by cases k; exact ⟨[], [], rfl, by simp, Nat.zero_le _, fun _ => rfl⟩
  | _ + 1, none, st, st', es, e, k => by cases k; exact ⟨[], [], rfl, by simp, Nat.zero_le _, fun _ => rfl⟩
  | 0, some _, st, st', es, e, k => by cases k
  | fuel + 1, some s, st, st', es, e, k => by
    rw [parseLoop] at k
    cases h0 : states[s]? with
    | none => rw [h0] at k; cases k
    | some S =>
      rw [h0] at k
      simp only [Option.bind_eq_bind, Option.bind_some] at k
      cases h1 : stateEvents rz pkt st S with
      | none => rw [h1] at k; cases k
      | some x =>
        obtain ⟨es1, ⟨st1, e1⟩, next⟩ := x
        rw [h1] at k
        have a := state_says h1
        cases e1 with
        | some y => cases k; exact a
        | none =>
          simp only [Option.bind_some] at k
          cases h2 : parseLoop rz states pkt fuel next st1 with
          | none => rw [h2] at k; cases k
          | some y =>
            obtain ⟨es2, r2⟩ := y
            rw [h2] at k
            cases k
            obtain ⟨hs, ex, a1, a2, -, a4⟩ := a
            obtain ⟨hs2, ex2, b1, b2, b3, b4⟩ := parseLoop_says fuel next h2
            rw [a4 rfl, List.append_nil] at a1
            refine ⟨hs ++ hs2, ex2, ?_, ?_, b3, b4⟩
            · rw [a1, b1]; simp [told]
            · rw [b2, a2]; simp

theorem parseLoop_erase {rz : Bool} {states : List PState} {pkt : Parse.Pkt} : ∀ (fuel : Nat) (start : Option Nat) (st : St),
    (parseLoop rz states pkt fuel start st).map Prod.snd = Parse.loop rz states pkt fuel start st
  | 0, none, st => rfl
  | _ + 1, none, st => rfl
  | 0, some _, st => rfl
  | fuel + 1, some s, st => by
    rw [parseLoop, Parse.loop]
    cases h0 : states[s]? with
    | none => rfl
    | some S =>
      simp only [Option.bind_eq_bind, Option.bind_some]
      rw [← stateEvents_erase]
      cases h1 : stateEvents rz pkt st S with
      | none => rfl
      | some x =>
        obtain ⟨es1, ⟨st1, e1⟩, next⟩ := x
        cases e1 with
        | some y => rfl
        | none =>
          simp only [Option.bind_some, Option.map_some]
          rw [← parseLoop_erase fuel next st1]
          cases parseLoop rz states pkt fuel next st1 <;> rfl

/-! ## Deparsers -/

theorem emitEvents_erase (p : Phv) : ∀ (order : List Nat) (data : Bytes),
    (emitEvents p order data).map Prod.snd = emit p order data
  | [], data => rfl
  | h :: hs, data => by
    rw [emitEvents, emit]
    cases p.headers[h]? with
    | none => rfl
    | some hd =>
      simp only [Option.bind_eq_bind, Option.bind_some]
      split
      · cases hd.deparse data with
        | none => rfl
        | some d =>
          simp only [Option.bind_some]
          rw [← emitEvents_erase p hs]
          cases emitEvents p hs (d.drop hd.nbytesPacket) <;> rfl
      · exact emitEvents_erase p hs data

theorem emit_events (p : Phv) : ∀ (order : List Nat) (data : Bytes) {es out}, emitEvents p order data = some (es, out) →
    es = (order.filter fun h => (p.headers[h]?).any (·.isValid)).map fun (h : Nat) => Ev.emit h
  | [], data, _, _, k => by cases k; rfl
  | h :: hs, data, es, out, k => by
    rw [emitEvents] at k
    cases h1 : p.headers[h]? with
    | none => rw [h1] at k; cases k
    | some hd =>
      rw [h1] at k
      simp only [Option.bind_eq_bind, Option.bind_some] at k
      rw [List.filter_cons, h1, Option.any_some]
      cases hv : hd.isValid with
      | false =>
        simp only [hv] at k
        rw [if_neg (by decide)] at k ⊢
        exact emit_events p hs data k
      | true =>
        rw [hv, if_pos rfl] at k
        rw [if_pos rfl]
        cases h2 : hd.deparse data with
        | none => rw [h2] at k; cases k
        | some d =>
          rw [h2] at k
          simp only [Option.bind_some] at k
          cases h3 : emitEvents p hs (d.drop hd.nbytesPacket) with
          | none => rw [h3] at k; cases k
          | some y =>
            rw [h3] at k
            cases k
            rw [List.map_cons, ← emit_events p hs _ h3]

theorem sums_events : ∀ (cs : List Sum) {p p' : Phv} {es}, updateSums cs p = some (es, p') →
    es = cs.map fun c => Ev.checksum c.id
  | [], p, p', es, k => by cases k; rfl
  | c :: cs, p, p', es, k => by
    have fin : ∀ o : Option Phv, (o.bind fun q => (updateSums cs q).bind fun x => some (Ev.checksum c.id :: x.1, x.2)) =
        some (es, p') → es = (c :: cs).map fun c => Ev.checksum c.id := by
      intro o k
      simp only [Option.bind_eq_some_iff] at k
      obtain ⟨q, -, ⟨es2, q2⟩, k2, k⟩ := k
      cases k
      rw [List.map_cons, ← sums_events cs k2]
    simp only [updateSums, Option.bind_eq_bind, Option.pure_def] at k
    cases hb : c.met p with
    | none => rw [hb] at k; cases k
    | some b =>
      rw [hb, Option.bind_some] at k
      cases b
      · exact fin (some p) k
      · exact fin (c.update p) k

end

end Bm.Elog
