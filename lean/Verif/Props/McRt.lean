import Verif.Lemmas.McRtClient

/-!
# C99: multicast configuration through the Thrift server, the PD library and the command line tool

Full statement: every request gets the reply that the interface promises for the call it stands for
(`Obeys`), and every packet is replicated as the configuration built by the accepted requests says;
PD calls and commands have the effect of the call they stand for and report failures; a dump shows
the configuration.

The code does not meet it: see the refutations below.  What is missing in `C99_partial`: groups with
negative numbers on the wire (identifiers above `2^31 - 1`), strings of more than 512 digits, and
groups that are destroyed while they have nodes.
-/

namespace Bm.McRt

open Bm.Pre Bm.Spec.Mc Bm.Spec.McRt

/-- **C99 (partial).** Along every history of requests (for any contexts, with any numbers and any
strings of at most 512 characters) and packets on a fresh server, as long as groups have
non-negative numbers and are not destroyed while they have nodes: every reply is the one promised by
the interface for the context named, malformed requests and requests for unknown contexts are
answered with a failure and change nothing, and every packet is replicated as the configuration of
its context says. -/
theorem C99_partial (k groups l1 l2 : Nat) (hk : k ≤ 2 ^ 31) (hl : min l1 l2 ≤ 2 ^ 31)
    (calls : List Call)
    (hf : Fits (List.replicate k {}) (run (List.replicate k (Pre.init groups l1 l2)) calls).1) :
    Obeys ⟨groups, min l1 l2⟩ (List.replicate k {})
      (run (List.replicate k (Pre.init groups l1 l2)) calls).1 :=
  (run_ok hl calls _ _ (good_init k groups l1 l2) (by simpa using hk) hf).1

/-- **C99**, refusals, in every state: a request that is answered with an error or an unexpected
failure changes nothing at all. -/
theorem C99_refused (s : List State) (c : Call)
    (h : (call s c).1 = .unexpected ∨ ∃ k, (call s c).1 = .fail k) : (call s c).2 = s := by
  revert h
  cases hp : s[toU64 c.cxt]? with
  | none => simp [call, hp]
  | some p =>
    cases hs : serve p c.req with
    | none => simp [call, hp, hs]
    | some x =>
      obtain ⟨r, p'⟩ := x
      simp only [call, hp, hs]
      intro h
      have hne : r ≠ .unexpected := by
        rintro rfl
        rw [serve_eq, Option.map_eq_some_iff] at hs
        obtain ⟨⟨a, b⟩, _, hs⟩ := hs
        simp only [Prod.mk.injEq] at hs
        have hw := hs.1
        cases a with
        | err e => cases e <;> cases hq : c.req <;> rw [hq] at hw <;> simp [wire] at hw
        | _ => cases hq : c.req <;> rw [hq] at hw <;> simp [wire] at hw
      rcases h with h | ⟨k, rfl⟩
      · exact absurd h hne
      · rw [serve_fail hs]
        obtain ⟨hlt, rfl⟩ := List.getElem?_eq_some_iff.1 hp
        exact List.set_getElem_self hlt

/-- **C99**, contexts, in every state: a request leaves the other contexts alone. -/
theorem C99_isolated (s : List State) (c : Call) (k : Nat) (hk : (k : Int) ≠ c.cxt.toInt)
    (hlen : s.length ≤ 2 ^ 31) : (call s c).2[k]? = s[k]? := by
  cases hp : s[toU64 c.cxt]? with
  | none => simp [call, hp]
  | some p =>
    cases hs : serve p c.req with
    | none => simp [call, hp, hs]
    | some x =>
      simp only [call, hp, hs]
      rw [List.getElem?_set_ne]
      have hlt := (List.getElem?_eq_some_iff.1 hp).1
      by_cases hx : 0 ≤ c.cxt.toInt
      · have e := (toNat_nonneg c.cxt hx).2
        rw [toU64_nonneg c.cxt hx]
        intro he
        apply hk
        have : ident c.cxt = c.cxt.toInt.toNat := e.symm
        omega
      · have := toU64_neg c.cxt hx
        omega

/-- **C99**, long strings: the server takes the first 512 digits, so that in a string of `512 + d`
digits every port becomes the port `d` below it and the last `d` ports are lost. -/
theorem C99_shift (s : List Char) (hb : ∀ c ∈ s, c = '0' ∨ c = '1') :
    ∃ w, setOf s = some w ∧
      ∀ p, p ∈ den w ↔ p < 512 ∧ Lists s (p + (s.length - 512)) := setOf_long s hb

theorem readInts_map (l : List Int) : readInts (l.map Tok.num) = some l := by
  induction l with
  | nil => rfl
  | cons a l ih => simp [readInts, ih]

theorem takeWhile_nums (l : List Int) (r : List Tok) (hr : r = [] ∨ ∃ t, r = .bar :: t) :
    (l.map Tok.num ++ r).takeWhile (· ≠ .bar) = l.map Tok.num := by
  induction l with
  | nil =>
    rcases hr with rfl | ⟨t, rfl⟩ <;> simp
  | cons a l ih =>
    rw [List.map_cons, List.cons_append, List.takeWhile_cons]
    simp only [ih]
    simp

theorem parse_eq (ports lags : List Int) :
    parsePortsLags (ports.map Tok.num ++ .bar :: lags.map Tok.num)
      = (portMapStr ports).bind fun p => (portMapStr lags).map fun l => (p, l) := by
  unfold parsePortsLags
  simp only [takeWhile_nums ports (.bar :: lags.map Tok.num) (.inr ⟨_, rfl⟩), readInts_map,
    Option.bind_eq_bind, Option.bind_some, Option.pure_def]
  have : (ports.map Tok.num ++ .bar :: lags.map Tok.num).drop ((ports.map Tok.num).length + 1)
      = lags.map Tok.num := by
    rw [List.drop_append]
    simp
  rw [this, readInts_map]
  cases portMapStr ports with
  | none => rfl
  | some p => cases h : portMapStr lags <;> simp [h]

/-- **C99**, command line.  `mc_node_create <rid> <ports> | <lags>` sends a request exactly when no
number is negative or given twice; the request then stands for the creation of a node with these
ports and LAGs, provided they are below 512. -/
theorem C99_cli_partial (rid : Int32) (ports lags : List Int) :
    match CliPorts ports, CliPorts lags with
    | some P, some L => ∃ c, cliNodeCreate rid (ports.map Tok.num ++ .bar :: lags.map Tok.num) = some c ∧
        ((∀ p ∈ P, p < 512) → (∀ p ∈ L, p < 512) →
          c.cxt = 0 ∧ Modest c.req ∧ meaning c.req = some (.nodeCreate (ident rid) P (some L)))
    | _, _ => cliNodeCreate rid (ports.map Tok.num ++ .bar :: lags.map Tok.num) = none := by
  have h1 := portMapStr_spec ports
  have h2 := portMapStr_spec lags
  unfold cliNodeCreate
  rw [parse_eq]
  cases hp : CliPorts ports with
  | none =>
    rw [hp] at h1
    simp only at h1
    simp [h1]
  | some P =>
    rw [hp] at h1
    obtain ⟨s, e1, e2, e3, e4⟩ := h1
    cases hl : CliPorts lags with
    | none =>
      rw [hl] at h2
      simp only at h2
      simp [e1, h2]
    | some L =>
      rw [hl] at h2
      obtain ⟨s', f1, f2, f3, f4⟩ := h2
      refine ⟨⟨0, .nodeCreate rid s (some s')⟩, by simp [e1, f1], fun hP hL => ⟨rfl, ?_, ?_⟩⟩
      · exact ⟨e4 512 hP, fun l hl' => by
          obtain rfl : s' = l := by simpa using hl'
          exact f4 512 hL⟩
      · simp only [meaning, portsOf_of s P e2 e3 hP, portsOf_of s' L f2 f3 hL]

/-- **C99**, PD library.  Every PD call except the dissociation of a node, on a connected device,
performs exactly one request in context 0, and the request stands for the call; status and handle
are those of the reply. -/
theorem C99_pd_partial (s : List State) (dev : Int) (hd : 0 ≤ dev ∧ dev < 256) (c : Pd)
    (ha : PdArrays c) (hc : ∀ h n, c ≠ .dissociate h n) :
    ∃ r, meaning r = some (pdMeaning c) ∧
      pdCall s dev c = some (pdOut (call s ⟨0, r⟩).1, (call s ⟨0, r⟩).2) ∧
      ∀ ret, (call s ⟨0, r⟩).1 = .unit ∨ (call s ⟨0, r⟩).1 = .num ret →
        ∃ h, pdOut (call s ⟨0, r⟩).1 = .status 0 h ∧
          ((call s ⟨0, r⟩).1 = .num ret → ∃ v, h = some v ∧ v.toNat = ident ret) := by
  have out : ∀ rep : Reply, ∀ ret, rep = .unit ∨ rep = .num ret →
      ∃ h, pdOut rep = .status 0 h ∧ (rep = .num ret → ∃ v, h = some v ∧ v.toNat = ident ret) := by
    rintro rep ret (rfl | rfl)
    · exact ⟨none, rfl, by simp⟩
    · exact ⟨some (UInt32.ofBitVec ret.toBitVec), rfl, fun _ => ⟨_, rfl, rfl⟩⟩
  have hdev : ¬ (dev < 0 ∨ dev ≥ 256) := by omega
  have key : ∀ r, pdReq c = some (some r) → pdCall s dev c
      = some (pdOut (call s ⟨0, r⟩).1, (call s ⟨0, r⟩).2) := by
    intro r hr
    unfold pdCall
    cases c
    case dissociate h n => exact absurd rfl (hc h n)
    all_goals simp only [hdev, if_false, hr, Option.bind_eq_bind, Option.bind_some, Option.pure_def]
  cases c with
  | dissociate h n => exact absurd rfl (hc h n)
  | mgrpCreate g =>
    refine ⟨_, ?_, key _ rfl, out _⟩
    simp [meaning, pdMeaning, ident]
  | mgrpDestroy h => exact ⟨_, rfl, key _ rfl, out _⟩
  | associate h n => exact ⟨_, rfl, key _ rfl, out _⟩
  | nodeDestroy n => exact ⟨_, rfl, key _ rfl, out _⟩
  | nodeCreate rid ports lags =>
    obtain ⟨s1, a1, a2, a3⟩ := convertMap_spec ports ha.1
    obtain ⟨s2, b1, b2, b3⟩ := convertMap_spec lags ha.2
    refine ⟨_, ?_, key _ (by simp [pdReq, a1, b1]; rfl), out _⟩
    simp only [meaning, a3, b3, pdMeaning, ident]
    simp
  | nodeUpdate n ports lags =>
    obtain ⟨s1, a1, a2, a3⟩ := convertMap_spec ports ha.1
    obtain ⟨s2, b1, b2, b3⟩ := convertMap_spec lags ha.2
    refine ⟨_, ?_, key _ (by simp [pdReq, a1, b1]; rfl), out _⟩
    simp only [meaning, a3, b3, pdMeaning, ident]
    rfl
  | setLag i ports =>
    obtain ⟨s1, a1, a2, a3⟩ := convertMap_spec ports ha
    refine ⟨_, ?_, key _ (by simp [pdReq, a1]; rfl), out _⟩
    simp only [meaning, a3, pdMeaning]
    rfl

/-- **C99**, PD library: a device number out of range is refused and nothing is sent. -/
theorem C99_pd_device (s : List State) (dev : Int) (hd : dev < 0 ∨ 256 ≤ dev) (c : Pd)
    (hc : ∀ h n, c ≠ .dissociate h n) : pdCall s dev c = some (.status 1 none, s) := by
  have hdev : dev < 0 ∨ dev ≥ 256 := hd
  unfold pdCall
  cases c
  case dissociate h n => exact absurd rfl (hc h n)
  all_goals simp only [hdev, if_true, Option.pure_def]

theorem run_length (s : List State) (calls : List Call) : (run s calls).2.length = s.length := by
  induction calls generalizing s with
  | nil => rfl
  | cons c calls ih => simp only [run]; rw [ih, call_length]

theorem dumpLags_some (q : List Nat) (ls : List (Nat × List Nat)) :
    dumpLags (some q) ls = some (ls.map fun x => (x.1, q)) := by
  induction ls with
  | nil => rfl
  | cons x ls ih => simp [dumpLags, ih]

/-- **C99**, dump.  After every history covered by `C99_partial`, the dump of the groups shows the
configuration of the context: every group once, every node of the group once, with its replication
id, ports and LAGs.  For engines without link aggregation the dump always succeeds; otherwise it
succeeds when some group has a node or there is no LAG. -/
theorem C99_dump_partial (k groups l1 l2 : Nat) (hk : k ≤ 2 ^ 31) (hl : min l1 l2 ≤ 2 ^ 31)
    (calls : List Call)
    (hf : Fits (List.replicate k {}) (run (List.replicate k (Pre.init groups l1 l2)) calls).1)
    (j : Nat) (hj : j < k) :
    ∃ p c, (run (List.replicate k (Pre.init groups l1 l2)) calls).2[j]? = some p ∧
      (afterAll (List.replicate k {})
        (run (List.replicate k (Pre.init groups l1 l2)) calls).1)[j]? = some c ∧
      (∃ gs, dump (getEntries false p) = some (gs, none) ∧ ShowsGroups c gs) ∧
      (∀ gs ls, dump (getEntries true p) = some (gs, ls) → ShowsGroups c gs) ∧
      ((∀ i, p.lags.find? i = none) ∨ (∃ g ∈ c.groups, (members c g).Nonempty) →
        (dump (getEntries true p)).isSome) := by
  obtain ⟨_, hg⟩ := run_ok hl calls _ _ (good_init k groups l1 l2) (by simpa using hk) hf
  have hlen : (run (List.replicate k (Pre.init groups l1 l2)) calls).2.length = k := by
    rw [run_length]; simp
  have hwide := wide_after (cs := List.replicate k {}) (fun c hc => by
    rw [List.eq_of_mem_replicate hc]; constructor <;> simp)
    (run (List.replicate k (Pre.init groups l1 l2)) calls).1
  generalize (run (List.replicate k (Pre.init groups l1 l2)) calls).2 = s at *
  generalize afterAll (List.replicate k {})
    (run (List.replicate k (Pre.init groups l1 l2)) calls).1 = cs at *
  have hp : s[j]? = some s[j] := List.getElem?_eq_getElem (by omega)
  have hc : cs[j]? = some (cs[j]'(by have := hg.1; omega)) := List.getElem?_eq_getElem _
  have hi := hg.2 j _ _ hp hc
  have hw := hwide _ (List.mem_of_getElem? hc)
  refine ⟨_, _, hp, hc, ?_, ?_, ?_⟩
  · obtain ⟨gs, h1, h2⟩ := dumpGroups_spec hi hl hw false
    refine ⟨gs, ?_, h2⟩
    simp only [dump, h1, Option.bind_eq_bind, Option.bind_some]
    rfl
  · intro gs ls h
    obtain ⟨gs', h1, h2⟩ := dumpGroups_spec hi hl hw true
    simp only [dump, h1, Option.bind_eq_bind, Option.bind_some] at h
    rw [show (getEntries true s[j]).lags = some (s[j].lags.l.map fun p =>
      (uint p.1, positions p.2.portMap)) from rfl] at h
    simp only [Option.bind_eq_some_iff, Option.pure_def, Option.some.injEq, Prod.mk.injEq] at h
    obtain ⟨_, _, rfl, _⟩ := h
    exact h2
  · intro h
    obtain ⟨gs, h1, h2⟩ := dumpGroups_spec hi hl hw true
    simp only [dump, h1, Option.bind_eq_bind, Option.bind_some]
    rw [show (getEntries true s[j]).lags = some (s[j].lags.l.map fun p =>
      (uint p.1, positions p.2.portMap)) from rfl]
    rcases h with h | ⟨g, hg, n, hn⟩
    · have : s[j].lags.l = [] := by
        cases hll : s[j].lags.l with
        | nil => rfl
        | cons x l =>
          have := h x.1
          simp [UMap.find?, hll, List.lookup_cons] at this
      rw [this]
      rfl
    · obtain ⟨a1, a2, a3⟩ := h2
      obtain ⟨x, hx, rfl⟩ := List.mem_map.1 ((a2 g).2 hg)
      obtain ⟨l, hl', _⟩ := List.mem_map.1 (((a3 x hx).2.1 n).2 hn)
      have hne : gs.flatMap Prod.snd ≠ [] := by
        intro he
        have : l ∈ gs.flatMap Prod.snd := List.mem_flatMap.2 ⟨x, hx, hl'⟩
        rw [he] at this; simp at this
      rw [show lastPorts gs = some (((gs.flatMap Prod.snd).getLast hne).2.2.1) by
        simp [lastPorts, List.getLast?_eq_some_getLast hne]]
      simp only [dumpLags_some]
      rfl

/-! ## Refutations -/

/-- A fresh server with one context, the default sizes (`/repo/include/bm/bm_sim/simple_pre.h:75-77`)
reduced. -/
def fresh : List State := [Pre.init 4 4 4]

/-- Group `2^32 - 1`, which travels as `-1`, can be created, but no node can be associated with it. -/
def negCalls : List Call :=
  [⟨0, .mgrpCreate (-1)⟩, ⟨0, .nodeCreate 7 ['1'] (some [])⟩, ⟨0, .associate (-1) 0⟩]

theorem negRun : (run fresh negCalls).1 =
    [(⟨0, .mgrpCreate (-1)⟩, .num (-1)), (⟨0, .nodeCreate 7 ['1'] (some [])⟩, .num 0),
     (⟨0, .associate (-1) 0⟩, .fail 3)] := by decide +kernel

/-- **C99 is violated**: the handle returned for a group with a negative number is not accepted. -/
theorem C99_refuted_group : ¬ ∀ calls, Obeys ⟨4, 4⟩ [{}] (run fresh calls).1 := by
  intro h
  have h1 := h negCalls
  rw [negRun] at h1
  have hp1 : portsOf ['1'] = some {0} := by decide
  have hp0 : portsOf [] = some ∅ := by decide
  have hid : ident (-1) = 4294967295 := by decide
  simp [Obeys, Right, next, context, meaning, reads, effect, Allowed, hp1, hp0, hid, upd] at h1

/-- A string of 513 digits that lists port 511 only. -/
def longStr : List Char := '0' :: '1' :: List.replicate 511 '0'

/-- **C99 is violated**: a well-formed string with a leading zero too many is accepted, and the
packet goes to another port. -/
theorem C99_refuted_string :
    ∃ S, portsOf longStr = some S ∧ 511 ∈ S ∧ 510 ∉ S ∧
      (run fresh [⟨0, .mgrpCreate 1⟩, ⟨0, .nodeCreate 7 longStr (some [])⟩, ⟨0, .associate 1 0⟩,
        ⟨0, .packet 1⟩]).1.map Prod.snd = [.num 1, .num 0, .unit, .copies [(7, 510)]] := by
  refine ⟨_, if_pos (by decide +kernel), by decide +kernel, by decide +kernel, by decide +kernel⟩

/-- **C99 is violated**: the command line tool accepts port 512, and then all the ports of the node
are wrong: ports 3 and 512 become 2 and 511. -/
theorem C99_refuted_cli :
    ∃ s w, portMapStr [3, 512] = some s ∧ setOf s = some w ∧ den w = {2, 511} := by
  have h := portMapStr_spec [3, 512]
  have hc : CliPorts [3, 512] = some {3, 512} := by decide
  rw [hc] at h
  obtain ⟨s, h1, h2, h3, h4⟩ := h
  obtain ⟨w, h5, h6⟩ := setOf_long s h2
  refine ⟨s, w, h1, h5, ?_⟩
  have hlen : s.length = 513 := by
    have a := h4 513 (by simp)
    have b := (h3 512).2 (by simp)
    unfold Lists at b
    have := (List.getElem?_eq_some_iff.1 b).1
    simp at this
    omega
  ext p
  rw [h6, hlen, h3]
  simp only [Finset.mem_insert, Finset.mem_singleton]
  omega

/-- **C99 is violated**: when a group is destroyed while it has a node, the node can neither be
destroyed nor associated again. -/
theorem C99_refuted_destroy :
    (run fresh [⟨0, .mgrpCreate 1⟩, ⟨0, .nodeCreate 7 ['1'] (some [])⟩, ⟨0, .associate 1 0⟩,
      ⟨0, .mgrpDestroy 1⟩, ⟨0, .nodeDestroy 0⟩, ⟨0, .mgrpCreate 2⟩, ⟨0, .associate 2 0⟩]).1.map
        Prod.snd
      = [.num 1, .num 0, .unit, .unit, .unexpected, .num 2, .fail 5] := by decide +kernel

/-- One port in a PD map. -/
def pdOne : List UInt8 := 8 :: List.replicate 63 0

/-- A sequence of PD calls on device 0.  `/repo/pdfixed/src/pd_pre.cpp:65-164`. -/
def pdRun (s : List State) : List Pd → Option (List PdOut × List State)
  | [] => some ([], s)
  | c :: cs => do
    let (o, s1) ← pdCall s 0 c
    let (os, s2) ← pdRun s1 cs
    return (o :: os, s2)

/-- **C99 is violated**: dissociating a node through the PD library reports success and does
nothing; the node still gets its copies. -/
theorem C99_refuted_pd_dissociate :
    ((pdRun fresh [.mgrpCreate 1, .nodeCreate 7 pdOne pdOne, .associate 1 0, .dissociate 1 0]).map
      fun x => (x.1, (call x.2 ⟨0, .packet 1⟩).1))
      = some ([.status 0 (some 1), .status 0 (some 0), .status 0 none, .status 0 none],
          .copies [(7, 3)]) := by decide +kernel

/-- **C99 is violated**: a PD call that the switch refuses does not return an error status: a C++
exception leaves the C function. -/
theorem C99_refuted_pd_error :
    (pdCall fresh 0 (.nodeDestroy 5)).map Prod.fst = some .exception := by decide +kernel

instance : DecidableEq Line := inferInstanceAs (DecidableEq (Nat × Nat × List Nat × List Nat))
instance : DecidableEq (List (Nat × List Line) × Option (List (Nat × List Nat))) := inferInstance

/-- **C99 is violated**: the dump prints every LAG with the ports of the last node shown. -/
theorem C99_refuted_dump :
    ((run fresh [⟨0, .mgrpCreate 1⟩, ⟨0, .nodeCreate 7 ['1'] (some ['1'])⟩, ⟨0, .associate 1 0⟩,
      ⟨0, .setLag 0 ['1', '0', '0']⟩]).2[0]?.bind fun p => dump (getEntries true p))
      = some ([(1, [(0, 7, [0], [0])])], some [(0, [0])]) := by decide +kernel

/-- **C99 is violated**: with a LAG and no node in any group the dump fails. -/
theorem C99_refuted_dump_fail :
    ((run fresh [⟨0, .setLag 0 ['1']⟩]).2[0]?.map fun p => dump (getEntries true p))
      = some none := by decide +kernel

/-! ## Cases -/

namespace Ex

/-- A history that meets the hypotheses of `C99_partial`: a group, two nodes (one with a LAG), bad
requests, packets, dissociation. -/
def calls : List Call :=
  [⟨0, .mgrpCreate 5⟩, ⟨0, .nodeCreate 7 ['1', '0', '1'] (some ['1'])⟩,
   ⟨0, .setLag 0 ['1', '0', '0', '0']⟩, ⟨0, .associate 5 0⟩, ⟨0, .packet 5⟩,
   ⟨0, .nodeCreate 8 ['x'] (some [])⟩, ⟨-1, .packet 5⟩, ⟨0, .associate 5 (-3)⟩, ⟨1, .packet 5⟩,
   ⟨0, .dissociate 5 0⟩, ⟨0, .packet 5⟩, ⟨0, .mgrpDestroy 5⟩]

/-- Two contexts. -/
def two : List State := List.replicate 2 (Pre.init 4 4 4)

theorem calls_replies : (run two calls).1.map Prod.snd =
    [.num 5, .num 0, .unit, .unit, .copies [(7, 0), (7, 2), (7, 3)], .unexpected, .unexpected,
     .fail 4, .copies [], .unit, .copies [], .unit] := by decide +kernel

theorem calls_run : (run two calls).1 = calls.zip
    [.num 5, .num 0, .unit, .unit, .copies [(7, 0), (7, 2), (7, 3)], .unexpected, .unexpected,
     .fail 4, .copies [], .unit, .copies [], .unit] := by decide +kernel

/-- `C99_partial` covers it. -/
theorem C99_case : Obeys ⟨4, min 4 4⟩ (List.replicate 2 {}) (run two calls).1 := by
  refine C99_partial 2 4 4 4 (by omega) (by omega) calls ?_
  show Fits _ (run two calls).1
  rw [calls_run]
  have h1 : portsOf ['1', '0', '1'] = some {0, 2} := by decide
  have h2 : portsOf ['1'] = some {0} := by decide
  have h3 : portsOf ['1', '0', '0', '0'] = some {3} := by decide
  have h4 : portsOf ['x'] = none := by decide
  have i5 : ident 5 = 5 := by decide
  have i0 : ident 0 = 0 := by decide
  simp [calls, Fits, Modest, Careful, next, context, meaning, reads, effect, DestroysUsed, h1, h2, h3,
    h4, i5, i0, upd, List.replicate, members]

/-- A case for `C99_cli_partial`: ports given in any order. -/
theorem C99_case_cli : CliPorts [3, 1] = some {1, 3} ∧ CliPorts [2] = some {2} ∧
    CliPorts [3, 3] = none ∧ CliPorts [-1] = none := by decide

/-- A case for `C99_pd_partial`. -/
theorem C99_case_pd : PdArrays (.nodeCreate 7 pdOne pdOne) ∧ pdPorts pdOne = {3} :=
  ⟨⟨by decide, by decide⟩, by decide +kernel⟩

end Ex

end Bm.McRt
