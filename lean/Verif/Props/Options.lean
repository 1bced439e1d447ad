import Verif.Lemmas.Options

/-!
# C116: the switch is what the command line says
-/

namespace Bm.Options

open Spec

/-- Which command lines are accepted: `exit(1)` for those which are no list of options and, unless only information is asked for, for
those whose options do not fit together; `exit(0)` for information; all others are accepted.  (Interfaces written otherwise than
documented are in `C116_refuted_iface`.) -/
theorem C116_accepted (isDir : Str → Bool) (tp : Bool) (a : Args) (ht : Typed a) (hcl : Clean a) :
    (parse isDir tp a = .exit 1 ↔ Malformed a ∨ (¬ Info a ∧ Contradictory isDir a)) ∧
    (parse isDir tp a = .exit 0 ↔ ¬ Malformed a ∧ Info a) ∧
    ((∃ p, parse isDir tp a = .ok p) ↔ ¬ Malformed a ∧ ¬ Info a ∧ ¬ Contradictory isDir a) := by
  rw [parse_eq]
  by_cases hm : Malformed a
  · rw [if_pos ((store_iff hcl).2 hm)]
    simp [hm]
  · rw [if_neg (fun h => hm ((store_iff hcl).1 h))]
    have hi : (count a .help || count a .version || count a .jsonVersion) = true ↔ Info a := by
      simp only [Bool.or_eq_true, count_iff, Info, or_assoc]
    by_cases h : Info a
    · rw [if_pos (hi.2 h)]
      simp [hm, h]
    · rw [if_neg (fun g => h (hi.1 g))]
      by_cases hb : Contradictory isDir a
      · rw [if_pos ((bad_iff ht (once_of hm)).2 hb)]
        simp [hm, h, hb]
      · rw [if_neg (fun g => hb ((bad_iff ht (once_of hm)).1 g))]
        simp [hm, h, hb]

theorem addr_aux (x y c d t : Str) (h : t = '-' :: c ++ d) : x ++ y ++ t = x ++ y ++ '-' :: c ++ d := by
  rw [h, List.append_assoc, List.append_assoc, List.append_assoc]

theorem ipcAddr_notifications (id : Int) : ipcAddr id "-notifications.ipc" = defaultAddr id "notifications" := by
  have : "-notifications.ipc".toList = '-' :: "notifications".toList ++ ".ipc".toList := by decide
  unfold ipcAddr defaultAddr
  exact addr_aux _ _ _ _ _ this

theorem ipcAddr_debug (id : Int) : ipcAddr id "-debug.ipc" = defaultAddr id "debug" := by
  have : "-debug.ipc".toList = '-' :: "debug".toList ++ ".ipc".toList := by decide
  unfold ipcAddr defaultAddr
  exact addr_aux _ _ _ _ _ this

theorem pathJoin_eq {d : Str} (hd : d ≠ []) (f : Str) : pathJoin d f = inDir d f := by
  have h1 : (d.isEmpty || d.getLast? = some '/') = true ↔ ∃ r, d = r ++ ['/'] := by
    rcases List.eq_nil_or_concat d with rfl | ⟨r, c, rfl⟩
    · exact absurd rfl hd
    · rw [List.concat_eq_append]
      simp only [List.getLast?_append, List.getLast?_singleton, Option.some_or, Option.some.injEq, Bool.or_eq_true, decide_eq_true_eq,
        List.isEmpty_iff, List.append_eq_nil_iff, reduceCtorEq, and_false, false_or]
      constructor
      · rintro rfl; exact ⟨r, rfl⟩
      · rintro ⟨r', h⟩
        have := List.append_inj' h rfl
        simpa using this.2
  unfold pathJoin inDir
  split
  · rw [if_pos ⟨_, rfl⟩]
  · rename_i hf
    have hneg : ¬ ∃ r, f = '/' :: r := by rintro ⟨r, rfl⟩; exact hf r rfl
    rw [if_neg hneg]
    by_cases h : ∃ r, d = r ++ ['/']
    · rw [if_pos h, if_pos (h1.2 h)]
    · rw [if_neg h, if_neg (fun g => h (h1.1 g))]

/-- What an accepted command line sets: every setting is the value given or the default. -/
theorem C116_settings (isDir : Str → Bool) (tp : Bool) (a : Args) (ht : Typed a) (hcl : Clean a) (p : Parsed)
    (h : parse isDir tp a = .ok p) :
    (p.noP4 = true ↔ Given a .noP4) ∧
    (¬ Given a .noP4 → TextIs a .input [] p.config) ∧
    TextIs a .pcap [] p.pcapDir ∧ (p.pcap = true ↔ p.pcapDir ≠ []) ∧
    NumIs a .thriftPort 9090 p.thriftPort ∧
    NumIs a .deviceId 0 p.deviceId ∧
    (p.useFiles = true ↔ Given a .useFiles) ∧ (∃ w, NumIs a .useFiles 0 w ∧ p.waitTime = max w 0) ∧
    (p.packetIn = true ↔ Given a .packetIn) ∧ TextIs a .packetIn [] p.packetInAddr ∧
    TextIs a .nanolog [] p.eventLogger ∧
    TextIs a .logFile [] p.fileLogger ∧ (p.console = true ↔ Given a .logConsole) ∧
    (∃ l, TextIs a .logLevel "trace".toList l ∧ (levelName p.logLevel).map String.toList = some l) ∧
    (p.logFlush = true ↔ Given a .logFlush ∧ Given a .logFile) ∧
    (Given a .logFile → NumIs a .logFileMaxSize 5242880 p.logMaxSize ∧ NumIs a .logFileMaxFiles 3 p.logMaxFiles) ∧
    TextIs a .notificationsAddr (defaultAddr p.deviceId "notifications") p.notifications ∧
    (p.debugger = true ↔ Given a .debugger ∨ Given a .debuggerAddr) ∧
    (p.debugger = true → TextIs a .debuggerAddr (defaultAddr p.deviceId "debug") p.debuggerAddr) ∧
    TextIs a .restoreState [] p.stateFile ∧
    NumIs a .dumpPacketData 0 p.dump ∧
    NumIs a .maxPortCount 512 p.maxPorts := by
  have hacc := (C116_accepted isDir tp a ht hcl).2.2.1 ⟨p, h⟩
  have ho := once_of hacc.1
  have hl0 : (levelOf a).isSome = true := by
    have hb : bad isDir a = false := by
      cases hb : bad isDir a with
      | false => rfl
      | true => exact absurd ((bad_iff ht ho).1 hb) hacc.2.2
    unfold bad at hb
    simp only [Bool.or_eq_false_iff] at hb
    cases hh : levelOf a with
    | none => rw [hh] at hb; simp at hb
    | some => rfl
  obtain ⟨level, hlevel⟩ := Option.isSome_iff_exists.1 hl0
  have hp : p = settings tp a level := by
    rw [parse_eq] at h
    split at h
    · cases h
    · split at h
      · cases h
      · split at h
        · cases h
        · rw [hlevel] at h; injection h with h; exact h.symm
  have t : ∀ o, kind o = .text → o ≠ .interface → o ≠ .further → ∀ d, TextIs a o d ((text? a o).getD d) :=
    fun o hk h1 h2 d => textIs ht hk (ho o h1 h2) d
  have n : ∀ o, kind o = .num → ∀ d, NumIs a o d ((num? a o).getD d) :=
    fun o hk d => numIs ht hk (ho o (by rintro rfl; cases hk) (by rintro rfl; cases hk)) d
  subst hp
  refine ⟨count_iff a _, ?_, t _ rfl (by decide) (by decide) _, ?_, n _ rfl _, n _ rfl _, count_iff a _, ⟨_, n _ rfl 0, ?_⟩, count_iff a _,
    t _ rfl (by decide) (by decide) _, t _ rfl (by decide) (by decide) _, t _ rfl (by decide) (by decide) _, count_iff a _, ?_, ?_, ?_,
    ?_, ?_, ?_, t _ rfl (by decide) (by decide) _, n _ rfl _, n _ rfl _⟩
  · intro hn
    have : count a .noP4 = false := by
      cases hc : count a .noP4 with
      | false => rfl
      | true => exact absurd ((count_iff _ _).1 hc) hn
    simp only [settings, this]
    exact t _ rfl (by decide) (by decide) _
  · simp only [settings]
    cases (text? a .pcap).getD [] <;> simp
  · simp only [settings]
    omega
  · by_cases hg : Given a .logLevel
    · obtain ⟨l, hl⟩ := given_text ht rfl hg
      refine ⟨l, .inl hl, ?_⟩
      simp only [levelOf] at hlevel
      rw [text_some hl (ho _ (by decide) (by decide))] at hlevel
      exact (levels_iff l level).1 hlevel
    · refine ⟨_, .inr ⟨hg, rfl⟩, ?_⟩
      simp only [levelOf] at hlevel
      rw [text_none hg] at hlevel
      simp only [Option.some.injEq] at hlevel
      subst hlevel
      rfl
  · simp only [settings, Bool.and_eq_true, count_iff]
  · intro hf
    simp only [settings, (count_iff a .logFile).2 hf, if_true]
    exact ⟨n _ rfl _, n _ rfl _⟩
  · rw [← ipcAddr_notifications]; exact t .notificationsAddr rfl (by decide) (by decide) _
  · simp only [settings, Bool.or_eq_true, count_iff]; exact or_comm
  · intro hd
    simp only [settings, Bool.or_eq_true] at hd ⊢
    by_cases hda : count a .debuggerAddr = true
    · rw [if_pos hda]
      obtain ⟨s, hs⟩ := given_text ht rfl ((count_iff _ _).1 hda)
      rw [text_some hs (ho _ (by decide) (by decide))]
      exact .inl hs
    · have : count a .debugger = true := by rcases hd with h | h; · exact absurd h hda
                                            · exact h
      rw [if_neg hda, if_pos this, ipcAddr_debug]
      exact .inr ⟨fun hh => hda ((count_iff _ _).2 hh), rfl⟩

/-- The ports: those of the command line, each with the last interface given for it, in ascending order; none with `--packet-in`. -/
theorem C116_ports (isDir : Str → Bool) (tp : Bool) (a : Args) (ht : Typed a) (hcl : Clean a) (p : Parsed)
    (h : parse isDir tp a = .ok p) :
    p.ifaces.Pairwise (fun x y => x.1 < y.1) ∧ ∀ q n, (q, n) ∈ p.ifaces ↔ Attached a q n := by
  have hacc := (C116_accepted isDir tp a ht hcl).2.2.1 ⟨p, h⟩
  have hg : ∀ t, (.interface, .text t) ∈ a → ∃ p n, IfaceText t p n := by
    intro t hm
    rcases hcl t hm with hh | hh
    · exact hh
    · exact absurd (.inr (.inr ⟨t, hm, hh⟩)) hacc.1
  have hp : p.ifaces = if count a .packetIn then [] else readIfaces (texts a .interface) := by
    rw [parse_eq] at h
    split at h
    · cases h
    · split at h
      · cases h
      · split at h
        · cases h
        · injection h with h; rw [← h]; rfl
  rw [hp]
  obtain ⟨h1, h2⟩ := readIfaces_spec a hg
  by_cases hc : count a .packetIn = true
  · rw [if_pos hc]
    refine ⟨List.Pairwise.nil, fun q n => ?_⟩
    constructor
    · intro hh; simp at hh
    · rintro ⟨hh, -⟩; exact absurd ((count_iff _ _).1 hc) hh
  · rw [if_neg hc]
    refine ⟨h1, fun q n => ?_⟩
    rw [h2]
    exact ⟨fun hh => ⟨fun g => hc ((count_iff _ _).2 g), hh⟩, fun hh => hh.2⟩

/-- The file of an interface, for `what` being `_in.pcap` or `_out.pcap`: with `--use-files` the name itself, with `--pcap` in the
directory. -/
def FileOf (a : Args) (n : Str) (what : String) (f : Option Str) : Prop :=
  (Given a .useFiles ∧ f = some (n ++ what.toList)) ∨
  (¬ Given a .useFiles ∧ ∃ d, (.pcap, .text d) ∈ a ∧ d ≠ [] ∧ f = some (inDir d (n ++ what.toList))) ∨
  (¬ Given a .useFiles ∧ (∀ d, (.pcap, .text d) ∈ a → d = []) ∧ f = none)

/-- What the switch does with an accepted command line: the program is loaded for the device given, packets come from where it says, the
ports are those given with their files, the state is restored at the end. -/
theorem C116_partial (isDir : Str → Bool) (tp : Bool) (a : Args) (ht : Typed a) (hcl : Clean a) (p : Parsed)
    (h : parse isDir tp a = .ok p) :
    (∀ q n i o, Eff.port q n i o ∈ init p ↔ Attached a q n ∧ FileOf a n "_in.pcap" i ∧ FileOf a n "_out.pcap" o) ∧
    (∀ c id, Eff.load c id ∈ init p ↔ NumIs a .deviceId 0 id ∧
      ((Given a .noP4 ∧ c = none) ∨ ∃ f, ¬ Given a .noP4 ∧ (.input, .text f) ∈ a ∧ c = some f)) ∧
    (∀ m, Eff.mgr m ∈ init p ↔ (Given a .useFiles ∧ ∃ w, NumIs a .useFiles 0 w ∧ m = .files (max w 0)) ∨
      (∃ id s, NumIs a .deviceId 0 id ∧ (.packetIn, .text s) ∈ a ∧ m = .packetIn id s) ∨
      (∃ id n, ¬ Given a .useFiles ∧ ¬ Given a .packetIn ∧ NumIs a .deviceId 0 id ∧ NumIs a .maxPortCount 512 n ∧ m = .bmi id n)) ∧
    (∀ f, Eff.restore f ∈ init p ↔ (.restoreState, .text f) ∈ a ∧ f ≠ []) ∧
    (∀ f, Eff.restore f ∈ init p → (init p).getLast? = some (.restore f)) := by
  have hacc := (C116_accepted isDir tp a ht hcl).2.2.1 ⟨p, h⟩
  have ho := once_of hacc.1
  obtain ⟨s1, s2, s3, s4, s5, s6, s7, ⟨w0, s8, s8'⟩, s9, s10, -, -, -, -, -, -, -, -, -, s20, -, s22⟩ := C116_settings isDir tp a ht hcl p h
  obtain ⟨-, hports⟩ := C116_ports isDir tp a ht hcl p h
  have tu : ∀ {o d x y}, o ≠ .interface → o ≠ .further → TextIs a o d x → TextIs a o d y → x = y := by
    intro o d x y h1 h2 hx hy
    have c := ho o h1 h2
    rcases hx with hx | ⟨hx, rfl⟩ <;> rcases hy with hy | ⟨hy, rfl⟩
    · exact Option.some.inj ((text_some hx c).symm.trans (text_some hy c))
    · exact absurd ⟨_, hx⟩ hy
    · exact absurd ⟨_, hy⟩ hx
    · rfl
  have nu : ∀ {o d x y}, o ≠ .interface → o ≠ .further → NumIs a o d x → NumIs a o d y → x = y := by
    intro o d x y h1 h2 hx hy
    have c := ho o h1 h2
    rcases hx with hx | ⟨hx, rfl⟩ <;> rcases hy with hy | ⟨hy, rfl⟩
    · exact Option.some.inj ((num_some hx c).symm.trans (num_some hy c))
    · exact absurd ⟨_, hx⟩ hy
    · exact absurd ⟨_, hy⟩ hx
    · rfl
  refine ⟨?_, ?_, ?_, ?_, ?_⟩
  · intro q n i o
    have e1 : Eff.port q n i o ∈ init p ↔ ∃ x ∈ p.ifaces, portEff p x = .port q n i o := by
      simp only [init, List.mem_append]
      constructor
      · rintro (((((((hh | hh) | hh) | hh) | hh) | hh) | hh) | hh)
        · split at hh <;> simp at hh
        · split at hh <;> simp at hh
        · split at hh <;> simp at hh
        · simp at hh
        · simp at hh
        · simp at hh
        · exact List.mem_map.1 hh
        · split at hh <;> simp at hh
      · intro hh; exact .inl (.inr (List.mem_map.2 hh))
    have files : ∀ x : Nat × Str, portEff p x = .port q n i o ↔ x = (q, n) ∧ FileOf a n "_in.pcap" i ∧ FileOf a n "_out.pcap" o := by
      rintro ⟨q', n'⟩
      unfold portEff
      by_cases hu : p.useFiles = true
      · have g := s7.1 hu
        simp only [hu, if_true, Eff.port.injEq, Prod.mk.injEq]
        constructor
        · rintro ⟨rfl, rfl, rfl, rfl⟩; exact ⟨⟨rfl, rfl⟩, .inl ⟨g, rfl⟩, .inl ⟨g, rfl⟩⟩
        · rintro ⟨⟨rfl, rfl⟩, hi, ho'⟩
          refine ⟨rfl, rfl, ?_, ?_⟩
          · rcases hi with hi | hi | hi
            · exact hi.2.symm
            · exact absurd g hi.1
            · exact absurd g hi.1
          · rcases ho' with hi | hi | hi
            · exact hi.2.symm
            · exact absurd g hi.1
            · exact absurd g hi.1
      · have g : ¬ Given a .useFiles := fun hh => hu (s7.2 hh)
        rw [if_neg hu]
        by_cases hp : p.pcap = true
        · have hne := s4.1 hp
          have hd : (.pcap, .text p.pcapDir) ∈ a := by
            rcases s3 with hh | ⟨-, hh⟩
            · exact hh
            · exact absurd hh hne
          have hdu : ∀ d, (.pcap, .text d) ∈ a → d = p.pcapDir := fun d hh => tu (by decide) (by decide) (.inl hh) s3
          simp only [hp, if_true, Eff.port.injEq, Prod.mk.injEq]
          constructor
          · rintro ⟨rfl, rfl, rfl, rfl⟩
            exact ⟨⟨rfl, rfl⟩, .inr (.inl ⟨g, _, hd, hne, by rw [pathJoin_eq hne]⟩), .inr (.inl ⟨g, _, hd, hne, by rw [pathJoin_eq hne]⟩)⟩
          · rintro ⟨⟨rfl, rfl⟩, hi, ho'⟩
            refine ⟨rfl, rfl, ?_, ?_⟩
            · rcases hi with hi | ⟨-, d, hd', -, e⟩ | hi
              · exact absurd hi.1 g
              · rw [e, hdu d hd', pathJoin_eq hne]
              · exact absurd (hi.2.1 _ hd) hne
            · rcases ho' with hi | ⟨-, d, hd', -, e⟩ | hi
              · exact absurd hi.1 g
              · rw [e, hdu d hd', pathJoin_eq hne]
              · exact absurd (hi.2.1 _ hd) hne
        · have he : p.pcapDir = [] := by
            apply Classical.byContradiction; intro hh; exact hp (s4.2 hh)
          have hdu : ∀ d, (.pcap, .text d) ∈ a → d = [] := fun d hh => (tu (by decide) (by decide) (.inl hh) s3).trans he
          rw [if_neg hp]
          simp only [Eff.port.injEq, Prod.mk.injEq]
          constructor
          · rintro ⟨rfl, rfl, rfl, rfl⟩
            exact ⟨⟨rfl, rfl⟩, .inr (.inr ⟨g, hdu, rfl⟩), .inr (.inr ⟨g, hdu, rfl⟩)⟩
          · rintro ⟨⟨rfl, rfl⟩, hi, ho'⟩
            refine ⟨rfl, rfl, ?_, ?_⟩
            · rcases hi with hi | ⟨-, d, hd', hne, e⟩ | hi
              · exact absurd hi.1 g
              · exact absurd (hdu d hd') hne
              · exact hi.2.2.symm
            · rcases ho' with hi | ⟨-, d, hd', hne, e⟩ | hi
              · exact absurd hi.1 g
              · exact absurd (hdu d hd') hne
              · exact hi.2.2.symm
    rw [e1]
    constructor
    · rintro ⟨x, hx, he⟩
      obtain ⟨rfl, h1, h2⟩ := (files x).1 he
      exact ⟨(hports q n).1 hx, h1, h2⟩
    · rintro ⟨h1, h2, h3⟩
      exact ⟨(q, n), (hports q n).2 h1, (files _).2 ⟨rfl, h2, h3⟩⟩
  · intro c id
    have e1 : Eff.load c id ∈ init p ↔ c = (if p.noP4 then none else some p.config) ∧ id = p.deviceId := by
      simp only [init, List.mem_append]
      constructor
      · rintro (((((((hh | hh) | hh) | hh) | hh) | hh) | hh) | hh)
        · split at hh <;> simp at hh
        · split at hh <;> simp at hh
        · split at hh <;> simp at hh
        · simp at hh
        · simpa using hh
        · simp at hh
        · obtain ⟨x, -, hx⟩ := List.mem_map.1 hh
          unfold portEff at hx
          repeat' split at hx
          all_goals cases hx
        · split at hh <;> simp at hh
      · rintro ⟨rfl, rfl⟩; exact .inl (.inl (.inl (.inr (by simp))))
    rw [e1]
    by_cases hn : Given a .noP4
    · rw [if_pos (s1.2 hn)]
      constructor
      · rintro ⟨rfl, rfl⟩; exact ⟨s6, .inl ⟨hn, rfl⟩⟩
      · rintro ⟨hid, ⟨-, rfl⟩ | ⟨f, hf, -⟩⟩
        · exact ⟨rfl, nu (by decide) (by decide) hid s6⟩
        · exact absurd hn hf
    · rw [if_neg (fun hh => hn (s1.1 hh))]
      have hin : Given a .input := by
        apply Classical.byContradiction; intro hh; exact hacc.2.2 (.inl ⟨hn, hh⟩)
      have hc : (.input, .text p.config) ∈ a := by
        rcases s2 hn with hh | ⟨hh, -⟩
        · exact hh
        · exact absurd hin hh
      constructor
      · rintro ⟨rfl, rfl⟩; exact ⟨s6, .inr ⟨_, hn, hc, rfl⟩⟩
      · rintro ⟨hid, ⟨hh, -⟩ | ⟨f, -, hf, rfl⟩⟩
        · exact absurd hh hn
        · exact ⟨by rw [tu (by decide) (by decide) (.inl hf) (s2 hn)], nu (by decide) (by decide) hid s6⟩
  · intro m
    have e1 : Eff.mgr m ∈ init p ↔ m = (if p.useFiles then .files p.waitTime else if p.packetIn then .packetIn p.deviceId p.packetInAddr
        else .bmi p.deviceId p.maxPorts) := by
      simp only [init, List.mem_append]
      constructor
      · rintro (((((((hh | hh) | hh) | hh) | hh) | hh) | hh) | hh)
        · split at hh <;> simp at hh
        · split at hh <;> simp at hh
        · split at hh <;> simp at hh
        · simp at hh
        · simp at hh
        · simpa using hh
        · obtain ⟨x, -, hx⟩ := List.mem_map.1 hh
          unfold portEff at hx
          repeat' split at hx
          all_goals cases hx
        · split at hh <;> simp at hh
      · rintro rfl; exact .inl (.inl (.inr (by simp)))
    rw [e1]
    by_cases hu : Given a .useFiles
    · rw [if_pos (s7.2 hu), s8']
      have hnp : ¬ Given a .packetIn := fun hh => hacc.2.2 (.inr (.inr (.inr (.inr (.inr (.inl ⟨hu, hh⟩))))))
      constructor
      · rintro rfl; exact .inl ⟨hu, w0, s8, rfl⟩
      · rintro (⟨-, w, hw, rfl⟩ | ⟨id, s, -, hs, -⟩ | ⟨id, n, hh, -⟩)
        · rw [nu (by decide) (by decide) hw s8]
        · exact absurd ⟨_, hs⟩ hnp
        · exact absurd hu hh
    · rw [if_neg (fun hh => hu (s7.1 hh))]
      by_cases hpi : Given a .packetIn
      · rw [if_pos (s9.2 hpi)]
        have hs : (.packetIn, .text p.packetInAddr) ∈ a := by
          rcases s10 with hh | ⟨hh, -⟩
          · exact hh
          · exact absurd hpi hh
        constructor
        · rintro rfl; exact .inr (.inl ⟨_, _, s6, hs, rfl⟩)
        · rintro (⟨hh, -⟩ | ⟨id, s, hid, hs', rfl⟩ | ⟨id, n, -, hh, -⟩)
          · exact absurd hh hu
          · rw [nu (by decide) (by decide) hid s6, tu (by decide) (by decide) (.inl hs') s10]
          · exact absurd hpi hh
      · rw [if_neg (fun hh => hpi (s9.1 hh))]
        constructor
        · rintro rfl; exact .inr (.inr ⟨_, _, hu, hpi, s6, s22, rfl⟩)
        · rintro (⟨hh, -⟩ | ⟨id, s, -, hs, -⟩ | ⟨id, n, -, -, hid, hn, rfl⟩)
          · exact absurd hh hu
          · exact absurd ⟨_, hs⟩ hpi
          · rw [nu (by decide) (by decide) hid s6, nu (by decide) (by decide) hn s22]
  · intro f
    have e1 : Eff.restore f ∈ init p ↔ p.stateFile ≠ [] ∧ f = p.stateFile := by
      simp only [init, List.mem_append]
      constructor
      · rintro (((((((hh | hh) | hh) | hh) | hh) | hh) | hh) | hh)
        · split at hh <;> simp at hh
        · split at hh <;> simp at hh
        · split at hh <;> simp at hh
        · simp at hh
        · simp at hh
        · simp at hh
        · obtain ⟨x, -, hx⟩ := List.mem_map.1 hh
          unfold portEff at hx
          repeat' split at hx
          all_goals cases hx
        · split at hh
          · rename_i hne; exact ⟨hne, by simpa using hh⟩
          · simp at hh
      · rintro ⟨hne, rfl⟩; right; rw [if_pos hne]; simp
    rw [e1]
    constructor
    · rintro ⟨hne, rfl⟩
      rcases s20 with hh | ⟨-, hh⟩
      · exact ⟨hh, hne⟩
      · exact absurd hh hne
    · rintro ⟨hf, hne⟩
      have := tu (by decide) (by decide) (.inl hf) s20
      exact ⟨by rw [← this]; exact hne, this⟩
  · intro f hf
    have : p.stateFile ≠ [] ∧ f = p.stateFile := by
      simp only [init, List.mem_append] at hf
      rcases hf with ((((((hh | hh) | hh) | hh) | hh) | hh) | hh) | hh
      · split at hh <;> simp at hh
      · split at hh <;> simp at hh
      · split at hh <;> simp at hh
      · simp at hh
      · simp at hh
      · simp at hh
      · obtain ⟨x, -, hx⟩ := List.mem_map.1 hh
        unfold portEff at hx
        repeat' split at hx
        all_goals cases hx
      · split at hh
        · rename_i hne; exact ⟨hne, by simpa using hh⟩
        · simp at hh
    rw [init, if_pos this.1, this.2, List.getLast?_append]
    rfl

/-- The logs: to the console or to the file given, with the level given. -/
theorem C116_logs (isDir : Str → Bool) (tp : Bool) (a : Args) (ht : Typed a) (hcl : Clean a) (p : Parsed)
    (h : parse isDir tp a = .ok p) :
    (Eff.logConsole ∈ init p ↔ Given a .logConsole) ∧
    (∀ f fl sz nf, Eff.logFile f fl sz nf ∈ init p ↔ (.logFile, .text f) ∈ a ∧ f ≠ [] ∧ (fl = true ↔ Given a .logFlush) ∧
      NumIs a .logFileMaxSize 5242880 sz ∧ NumIs a .logFileMaxFiles 3 nf) ∧
    (∀ l, Eff.logLevel l ∈ init p ↔ ∃ t, TextIs a .logLevel "trace".toList t ∧ (levelName l).map String.toList = some t) := by
  have hacc := (C116_accepted isDir tp a ht hcl).2.2.1 ⟨p, h⟩
  have ho := once_of hacc.1
  obtain ⟨-, -, -, -, -, -, -, -, -, -, -, s12, s13, ⟨l0, s14, s14'⟩, s15, s16, -⟩ := C116_settings isDir tp a ht hcl p h
  have tu : ∀ {o d x y}, o ≠ .interface → o ≠ .further → TextIs a o d x → TextIs a o d y → x = y := by
    intro o d x y h1 h2 hx hy
    have c := ho o h1 h2
    rcases hx with hx | ⟨hx, rfl⟩ <;> rcases hy with hy | ⟨hy, rfl⟩
    · exact Option.some.inj ((text_some hx c).symm.trans (text_some hy c))
    · exact absurd ⟨_, hx⟩ hy
    · exact absurd ⟨_, hy⟩ hx
    · rfl
  have nu : ∀ {o d x y}, o ≠ .interface → o ≠ .further → NumIs a o d x → NumIs a o d y → x = y := by
    intro o d x y h1 h2 hx hy
    have c := ho o h1 h2
    rcases hx with hx | ⟨hx, rfl⟩ <;> rcases hy with hy | ⟨hy, rfl⟩
    · exact Option.some.inj ((num_some hx c).symm.trans (num_some hy c))
    · exact absurd ⟨_, hx⟩ hy
    · exact absurd ⟨_, hy⟩ hx
    · rfl
  have cases8 : ∀ e : Eff, (∀ q n i o, e ≠ .port q n i o) → (e ∈ init p ↔ e ∈ ((if p.debugger then [.debugger p.debuggerAddr 0] else []) ++
      (if p.console then [.logConsole] else []) ++
      (if p.fileLogger ≠ [] then [.logFile p.fileLogger p.logFlush p.logMaxSize p.logMaxFiles] else []) ++
      [.logLevel p.logLevel] ++ [.load (if p.noP4 then none else some p.config) p.deviceId] ++
      [.mgr (if p.useFiles then .files p.waitTime else if p.packetIn then .packetIn p.deviceId p.packetInAddr
        else .bmi p.deviceId p.maxPorts)] ++ (if p.stateFile ≠ [] then [.restore p.stateFile] else []) : List Eff)) := by
    intro e he
    unfold init
    constructor
    · intro hh
      rcases List.mem_append.1 hh with hh | hh
      · rcases List.mem_append.1 hh with hh | hh
        · exact List.mem_append.2 (.inl hh)
        · exfalso
          obtain ⟨x, -, hx⟩ := List.mem_map.1 hh
          unfold portEff at hx
          simp only at hx
          split at hx
          · exact he _ _ _ _ hx.symm
          · split at hx
            · exact he _ _ _ _ hx.symm
            · exact he _ _ _ _ hx.symm
      · exact List.mem_append.2 (.inr hh)
    · intro hh
      rcases List.mem_append.1 hh with hh | hh
      · exact List.mem_append.2 (.inl (List.mem_append.2 (.inl hh)))
      · exact List.mem_append.2 (.inr hh)
  refine ⟨?_, ?_, ?_⟩
  · rw [cases8 _ (by intros; simp), ← s13]
    cases p.console <;> simp <;> (repeat' split) <;> simp
  · intro f fl sz nf
    have e1 : Eff.logFile f fl sz nf ∈ init p ↔ p.fileLogger ≠ [] ∧ f = p.fileLogger ∧ fl = p.logFlush ∧ sz = p.logMaxSize ∧
        nf = p.logMaxFiles := by
      rw [cases8 _ (by intros; simp)]
      simp only [List.mem_append]
      constructor
      · rintro ((((((hh | hh) | hh) | hh) | hh) | hh) | hh)
        · split at hh <;> simp at hh
        · split at hh <;> simp at hh
        · split at hh
          · rename_i hne; exact ⟨hne, by simpa using hh⟩
          · simp at hh
        · simp at hh
        · simp at hh
        · simp at hh
        · split at hh <;> simp at hh
      · rintro ⟨hne, rfl, rfl, rfl, rfl⟩
        exact .inl (.inl (.inl (.inl (.inr (by rw [if_pos hne]; simp)))))
    rw [e1]
    have hb : ∀ x y : Bool, (x = true ↔ y = true) → x = y := by decide
    constructor
    · rintro ⟨hne, rfl, rfl, rfl, rfl⟩
      have hf : (.logFile, .text p.fileLogger) ∈ a := by
        rcases s12 with hh | ⟨-, hh⟩
        · exact hh
        · exact absurd hh hne
      have g := s16 ⟨_, hf⟩
      exact ⟨hf, hne, ⟨fun hh => (s15.1 hh).1, fun hh => s15.2 ⟨hh, _, hf⟩⟩, g.1, g.2⟩
    · rintro ⟨hf, hne, hfl, h1, h2⟩
      have e := tu (by decide) (by decide) (.inl hf) s12
      have g := s16 ⟨_, hf⟩
      refine ⟨by rw [← e]; exact hne, e, hb _ _ ⟨fun hh => s15.2 ⟨hfl.1 hh, _, hf⟩, fun hh => hfl.2 (s15.1 hh).1⟩,
        nu (by decide) (by decide) h1 g.1, nu (by decide) (by decide) h2 g.2⟩
  · intro l
    have e1 : Eff.logLevel l ∈ init p ↔ l = p.logLevel := by
      rw [cases8 _ (by intros; simp)]
      simp only [List.mem_append]
      constructor
      · rintro ((((((hh | hh) | hh) | hh) | hh) | hh) | hh)
        · split at hh <;> simp at hh
        · split at hh <;> simp at hh
        · split at hh <;> simp at hh
        · simpa using hh
        · simp at hh
        · simp at hh
        · split at hh <;> simp at hh
      · rintro rfl; exact .inl (.inl (.inl (.inr (by simp))))
    rw [e1]
    constructor
    · rintro rfl; exact ⟨l0, s14, s14'⟩
    · rintro ⟨t, ht', hl⟩
      have := tu (by decide) (by decide) ht' s14
      subst this
      have g := ((levels_iff t l).2 hl).symm.trans ((levels_iff t p.logLevel).2 s14')
      exact Option.some.inj g

/-- What the parser of the target gets: the arguments after the program, in order; when no program is wanted the first argument is one of
them unless it looks like the file of a program. -/
theorem C116_target (isDir : Str → Bool) (tp : Bool) (a : Args) (ht : Typed a) (hcl : Clean a) (p : Parsed)
    (h : parse isDir tp a = .ok p) :
    (tp = false → p.target = none) ∧
    (tp = true → ¬ (Given a .noP4 ∧ Given a .input) → p.target = some (furtherTexts a)) ∧
    (tp = true → Given a .noP4 → ∀ path, (.input, .text path) ∈ a →
      (LooksLikeProgram path → p.target = some (furtherTexts a)) ∧
      (¬ LooksLikeProgram path → p.target = some (path :: furtherTexts a))) := by
  have hacc := (C116_accepted isDir tp a ht hcl).2.2.1 ⟨p, h⟩
  have ho := once_of hacc.1
  have hp : p.target = if tp then some (furtherArgs a) else none := by
    rw [parse_eq] at h
    split at h
    · cases h
    · split at h
      · cases h
      · split at h
        · cases h
        · injection h with h; rw [← h]; rfl
  have hft : texts a .further = furtherTexts a := by
    unfold texts furtherTexts
    congr 1; funext x
    obtain ⟨o, v⟩ := x
    cases o <;> cases v <;> rfl
  have hj : ".json".toList = ['.', 'j', 's', 'o', 'n'] := by decide
  rw [hp]
  refine ⟨fun e => by rw [e]; rfl, fun e hn => ?_, fun e hn path hpath => ?_⟩
  · rw [if_pos e, furtherArgs, hft]
    split
    · rename_i path h1 h2
      refine absurd ⟨(count_iff _ _).1 h1, ?_⟩ hn
      apply Classical.byContradiction; intro hh
      rw [text_none hh] at h2; cases h2
    · rfl
  · have hl : LooksLikeProgram path ↔ (!(decide (path.length > 2) && path.take 2 != ['-', '-']) || !hasJson path) = false := by
      simp only [Bool.or_eq_false_iff, Bool.not_eq_false', Bool.and_eq_true, decide_eq_true_eq, bne_iff_ne, hasJson,
        List.isSuffixOf_iff_suffix, LooksLikeProgram, and_assoc, hj]
      constructor
      · rintro ⟨h1, h2, stem, h3⟩
        refine ⟨h1, ?_, stem, h3.symm⟩
        intro h4
        apply h2 (path.drop 2)
        have := List.take_append_drop 2 path
        rw [h4] at this
        exact this.symm
      · rintro ⟨h1, h2, stem, h3⟩
        refine ⟨h1, ?_, stem, h3.symm⟩
        rintro r rfl
        exact h2 rfl
    rw [if_pos e, furtherArgs, hft, (count_iff _ _).2 hn, text_some hpath (ho _ (by decide) (by decide))]
    simp only
    constructor
    · intro hh; rw [hl.1 hh]; rfl
    · intro hh
      have : (!(decide (path.length > 2) && path.take 2 != ['-', '-']) || !hasJson path) = true := by
        cases hc : (!(decide (path.length > 2) && path.take 2 != ['-', '-']) || !hasJson path) with
        | true => rfl
        | false => exact absurd (hl.2 hc) hh
      rw [this]; rfl

/-! ## A command line -/

/-- `-i 3@a -i 10@b -i 3@c --device-id 7 --pcap d --log-level warn x.json -- y`. -/
def sample : Args :=
  [(.interface, .text ['3', '@', 'a']), (.interface, .text ['1', '0', '@', 'b']), (.interface, .text ['3', '@', 'c']),
   (.deviceId, .num 7), (.pcap, .text ['d']), (.logLevel, .text ['w', 'a', 'r', 'n']),
   (.input, .text ['x', '.', 'j', 's', 'o', 'n']), (.further, .text ['y'])]

def Out.get? : Out → Option Parsed
  | .ok p => some p
  | .exit _ => none

theorem sample_typed : Typed sample := by
  intro o v h
  simp only [sample, List.mem_cons, Prod.mk.injEq, List.not_mem_nil, or_false] at h
  rcases h with ⟨rfl, rfl⟩ | ⟨rfl, rfl⟩ | ⟨rfl, rfl⟩ | ⟨rfl, rfl⟩ | ⟨rfl, rfl⟩ | ⟨rfl, rfl⟩ | ⟨rfl, rfl⟩ | ⟨rfl, rfl⟩ <;>
    simp [kind]

theorem isDec3 : IsDec ['3'] 3 := IsDec.one 3 (by decide)

theorem isDec10 : IsDec ['1', '0'] 10 := IsDec.snoc ['1'] 1 0 (IsDec.one 1 (by decide)) (by decide)

theorem sample_clean : Clean sample := by
  intro t h
  simp only [sample, List.mem_cons, Prod.mk.injEq, Val.text.injEq, List.not_mem_nil, or_false, reduceCtorEq, false_and, true_and] at h
  rcases h with rfl | rfl | rfl
  · exact .inl ⟨3, ['a'], ['3'], isDec3, rfl, by decide, by decide⟩
  · exact .inl ⟨10, ['b'], ['1', '0'], isDec10, rfl, by decide, by decide⟩
  · exact .inl ⟨3, ['c'], ['3'], isDec3, rfl, by decide, by decide⟩

example : Typed sample ∧ Clean sample ∧
    (parse (fun d => d = ['d']) true sample).get?.map init = some [.logLevel .warn, .load (some "x.json".toList) 7, .mgr (.bmi 7 512),
      .port 3 "c".toList (some "d/c_in.pcap".toList) (some "d/c_out.pcap".toList),
      .port 10 "b".toList (some "d/b_in.pcap".toList) (some "d/b_out.pcap".toList)] ∧
    (parse (fun d => d = ['d']) true sample).get?.map Parsed.target = some (some [['y']]) ∧
    parse (fun _ => false) true sample = .exit 1 :=
  ⟨sample_typed, sample_clean, by decide +kernel, by decide +kernel, by decide +kernel⟩

/-! ## What is not as it should be -/

/-- Interfaces which are not written as documented are accepted: a letter after the number, a port of -1, which is 4294967295 then; and
ports from 2^31 on are refused although ports are 32 bits wide. -/
theorem C116_refuted_iface :
    readIface "3x@e".toList = some (3, ['e']) ∧ readIface "-1@e".toList = some (4294967295, ['e']) ∧
    readIface "2147483648@e".toList = none ∧ readIface "3@".toList = some (3, []) := by decide +kernel

/-- No command line which is accepted sets `warn_on_invalid_hdr_read` or `ret_zero_on_invalid_hdr_read`: these options are looked for, but
not declared, and giving one is an error. -/
theorem C116_refuted_flags (isDir : Str → Bool) (tp : Bool) (a : Args) :
    (∀ p, parse isDir tp a = .ok p → p.warnInvalid = false ∧ p.retZero = false) ∧
    (Given a .warnOnInvalidHdrRead ∨ Given a .retZeroOnInvalidHdrRead → parse isDir tp a = .exit 1) := by
  have hs : Given a .warnOnInvalidHdrRead ∨ Given a .retZeroOnInvalidHdrRead → store a = false := by
    intro hg
    cases hs : store a with
    | false => rfl
    | true =>
      exfalso
      rw [store, Bool.and_eq_true, List.all_eq_true] at hs
      rcases hg with ⟨v, hv⟩ | ⟨v, hv⟩
      · have := hs.1 _ hv; simp [Opt.declared] at this
      · have := hs.1 _ hv; simp [Opt.declared] at this
  refine ⟨fun p hp => ?_, fun hg => by rw [parse_eq, if_pos (hs hg)]⟩
  rw [parse_eq] at hp
  split at hp
  · cases hp
  · rename_i hst
    split at hp
    · cases hp
    · split at hp
      · cases hp
      · injection hp with hp
        rw [← hp]
        refine ⟨?_, ?_⟩
        · cases hc : count a .warnOnInvalidHdrRead with
          | false => exact hc
          | true => exact absurd (hs (.inl ((count_iff _ _).1 hc))) hst
        · cases hc : count a .retZeroOnInvalidHdrRead with
          | false => exact hc
          | true => exact absurd (hs (.inr ((count_iff _ _).1 hc))) hst

/-- `option_was_provided` says that `--pcap` and `--max-port-count` were given when they were not. -/
theorem C116_refuted_provided : ¬ ∀ (a : Args) (p : Parsed), parse (fun _ => true) false a = .ok p →
    ∀ o, p.wasProvided o = true → Given a o := by
  intro h
  have h' := h [(.noP4, .none)] _ rfl .pcap (by decide +kernel)
  obtain ⟨v, hv⟩ := h'
  simp at hv

/-- For all other options it is right. -/
theorem C116_provided (isDir : Str → Bool) (tp : Bool) (a : Args) (p : Parsed) (h : parse isDir tp a = .ok p) (o : Opt)
    (h1 : o ≠ .pcap) (h2 : o ≠ .maxPortCount) : p.wasProvided o = true ↔ Given a o := by
  have hp : p.provided = defaulted ++ a.map Prod.fst := by
    rw [parse_eq] at h
    split at h
    · cases h
    · split at h
      · cases h
      · split at h
        · cases h
        · injection h with h; rw [← h]; rfl
  rw [Parsed.wasProvided, hp]
  simp only [defaulted, List.contains_eq_mem, List.mem_append, List.mem_cons, List.not_mem_nil, or_false, List.mem_map, decide_eq_true_eq,
    h1, h2, false_or, Given]
  constructor
  · rintro ⟨⟨o', v⟩, hx, rfl⟩; exact ⟨v, hx⟩
  · rintro ⟨v, hv⟩; exact ⟨_, hv, rfl⟩

/-- The debugger is told that the device is 0, whatever the command line says. -/
theorem C116_refuted_debugger : ∃ a : Args, NumIs a .deviceId 0 7 ∧
    ((parse (fun _ => true) false a).get?.map fun p => (init p).head?) =
      some (some (.debugger "ipc:///tmp/bmv2-7-debug.ipc".toList 0)) :=
  ⟨[(.noP4, .none), (.deviceId, .num 7), (.debugger, .none)], .inl (by decide), by decide +kernel⟩

end Bm.Options
