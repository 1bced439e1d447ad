import Verif.Lemmas.SsMgmt

/-!
# C112: mirroring sessions and queue settings
-/

namespace Bm.SsMgmt

open Bm.SsMgmt.Spec Bm.Spec.Queueing
open Bm.SSwitch (Session getSession)

variable {T : Type}

/-- A switch which has just started.  `/repo/targets/simple_switch/simple_switch.cpp:200-214`. -/
def start (depth : Nat) : Sw T := { q := Queueing.init depth }

/-- **C112 (partial).** A switch with at most 32 priorities: fewer than 2^64 packets and requests, over Thrift, through PD, through PI
and with the command line tool, in any order and at any times, all do what they should.  A session which was set is there for
everybody (also for the clones of packets, `getSession`) with the port and the group set last, until it is deleted; depths and rates
are those set last, for the lines the request is about and for no others; packets are refused and leave accordingly (`Queueing.Ok`);
requests which cannot be fulfilled and lines which cannot be read change nothing.

Missing: what is said about sessions which could not be added over Thrift (`C112_refuted_add`), what PD returns (`C112_refuted_pd`),
what the tool says about priorities which do not exist (`C112_refuted_pri`), negative numbers for queues and numbers which do not fit
(`C112_refuted_negative`, `C112_refuted_fit`), additional arguments of settings (`C112_refuted_more`). -/
theorem C112_partial {F : Queueing.Fixed} (hpri : F.nbPri ≤ 32) (depth : Nat) (es : List (Int × Ev T)) (hn : es.length < 2 ^ 64)
    (hp : ∀ e ∈ es, Possible e.2) :
    ∃ s as st, (start depth).run F es = some (s, as) ∧ Follows F { lines := Queueing.emptyLines F depth } st es as ∧
      ∀ id, getSession s.sess id = (st.sess id).map fun x => ⟨x.1, x.2⟩ := by
  have h0 : Inv F 0 (start depth : Sw T) { lines := Queueing.emptyLines F depth } :=
    ⟨fun _ => rfl, fun _ h => absurd rfl h, Queueing.rep_init F depth⟩
  obtain ⟨s, as, st, h1, h2, h3⟩ := run_ok hpri es h0 (by omega) hp
  exact ⟨s, as, st, h1, h3, h2.sess⟩

/-- **C112.** What the sessions are after any requests: a session is there exactly if it was set after it was last deleted, whichever
interface was used for the one and for the other. -/
theorem C112_last (nb : Nat) (ticks : Nat → Nat) (t : Int) (st : St T) (id : Int) (p g : Option Nat)
    (hid : 0 ≤ id ∧ id < 32768) :
    ((want nb ticks t st (.add id p g)).1.sess id = some (p, g)) ∧
    ((want nb ticks t st (.del id)).1.sess id = none) ∧
    (∀ j, j ≠ id → (want nb ticks t st (.add id p g)).1.sess j = st.sess j ∧ (want nb ticks t st (.del id)).1.sess j = st.sess j) ∧
    (∀ w n q i, ¬w.Has q i → (want nb ticks t st (.depth w n)).1.lines.depth q i = st.lines.depth q i ∧
      (want nb ticks t st (.rate w n)).1.lines.interval q i = st.lines.interval q i) := by
  refine ⟨?_, ?_, fun j hj => ⟨?_, ?_⟩, fun w n q i hw => ⟨?_, ?_⟩⟩
  · rw [want, if_pos hid]; simp
  · rw [want]
    split
    · simp
    · rename_i h; simpa using h
  · rw [want, if_pos hid]; simp [hj]
  · rw [want]
    split
    · simp [hj]
    · rfl
  · rw [want]
    split
    · simp only [if_neg hw]
    · cases w <;> rfl
  · rw [want]
    split
    · simp only [if_neg hw]
    · cases w <;> rfl

/-! ## Refuted -/

/-- A switch with 2 priorities. -/
def exF : Queueing.Fixed := { nbWorkers := 1, nbPri := 2, worker := fun _ => 0, ticks := fun r => 1000 / r }

/-- What is seen. -/
def seen (es : List (Int × Ev Char)) : Option (List (Ans Char)) := ((start 64).run exF es).map Prod.snd

/-- **C112 refuted.** A session which cannot be added is not refused over Thrift, and the tool says nothing; the older request and PI
tell. -/
theorem C112_refuted_add :
    seen [(0, .thrift (.sessAdd 40000 (some 3) none)), (0, .thrift (.sessGet 40000)),
          (0, .cli .add [some 40000, some 3]), (0, .cli .get [some 40000]),
          (0, .thrift (.mapAdd 40000 3)), (0, .piSet 40000 ⟨true, 3, true, 0, false, 0⟩)] =
      some [.reply .void, .reply .notFound, .cli .fine none, .cli .told none, .reply (.int 0), .status .targetError] := by
  decide

/-- **C112 refuted.** `/repo/pdfixed/include/bm/pdfixed/pd_mirroring.h:21` says that 0 is returned for success: it is returned for
failures, and 1 for success; 1 is also returned for devices which do not exist. -/
theorem C112_refuted_pd :
    seen [(0, .pd 0 (.create 5 3)), (0, .thrift (.sessGet 5)), (0, .pd 0 (.create 40000 3)), (0, .pd 0 (.delete 6)),
          (0, .pd 0 (.delete 5)), (0, .pd 256 (.create 5 3)), (0, .thrift (.sessGet 5))] =
      some [.reply (.int 1), .reply (.config (some 3) none), .reply (.int 0), .reply (.int 0), .reply (.int 1), .reply (.int 1),
        .reply .notFound] := by
  decide

/-- What PD returns, in every state: 1 if the session was set or deleted, 0 if it could not be. -/
theorem C112_pd_returns {F : Queueing.Fixed} {n : Nat} {s : Sw T} {st : St T} (h : Inv F n s st) (t : Int) (dev : Int) (c : Pd)
    (hd : 0 ≤ dev ∧ dev < 256) :
    ∃ s', s.pd F t dev c = some (s', .int (if (want F.nbPri F.ticks t st c.want).2 = .ok then 1 else 0)) := by
  rw [Sw.pd, if_neg (by omega)]
  have hw := pd_want c
  cases c <;> simp only [Pd.rpc, Rpc.want, Option.some.injEq] at hw ⊢ <;> rw [← hw, Sw.rpc]
  · rw [(add_ok h t _ _ _).2]
    exact ⟨_, by simp only [ofBool]; split <;> simp_all <;> rfl⟩
  · rw [(add_ok h t _ _ _).2]
    exact ⟨_, by simp only [ofBool]; split <;> simp_all <;> rfl⟩
  · rw [(del_ok h t _).2]
    exact ⟨_, by simp only [ofBool]; split <;> simp_all <;> rfl⟩

/-- **C112 refuted.** A priority which does not exist ends the tool; the queue of the port exists from then on. -/
theorem C112_refuted_pri :
    seen [(0, .cli .depth [some 7, some 3, some 2]), (0, .cli .rate [some 7, some 3, some 9])] =
      some [.cli .crash none, .cli .crash none] := by
  decide

/-- **C112 refuted.** A negative depth is not refused: no packet is. -/
theorem C112_refuted_negative :
    seen [(0, .cli .depth [some 0]), (0, .queue (.push 3 0 'a' 0 0)), (0, .cli .depth [some (-1)]), (0, .queue (.push 3 0 'b' 0 0))] =
      some [.cli .fine none, .queue .refused, .cli .fine none, .queue .accepted] := by
  decide

/-- **C112 refuted.** Numbers which do not fit end the tool. -/
theorem C112_refuted_fit :
    seen [(0, .cli .add [some 1, some 4294967295]), (0, .cli .get [some 2147483648]), (0, .cli .depth [some 2147483648])] =
      some [.cli .crash none, .cli .crash none, .cli .crash none] := by
  decide

/-- **C112 refuted.** More arguments than a setting has are not noticed, not even if they are no numbers. -/
theorem C112_refuted_more :
    seen [(0, .cli .depth [some 0, some 3, some 1, none]), (0, .queue (.push 3 1 'a' 0 0)), (0, .cli .del [some 1, some 2])] =
      some [.cli .fine none, .queue .refused, .cli .told none] := by
  decide

/-- **C112 refuted.** The older request for the port of a session: -1 for a session which is not there, for one which has a group
only, and for the port 4294967295. -/
theorem C112_refuted_map :
    seen [(0, .thrift (.mapGet 1)), (0, .thrift (.mapAdd 1 0xffffffff)), (0, .thrift (.mapGet 1)),
          (0, .cli .addMc [some 1, some 5]), (0, .thrift (.mapGet 1))] =
      some [.reply (.int 0xffffffff), .reply (.int 1), .reply (.int 0xffffffff), .cli .fine none, .reply (.int 0xffffffff)] := by
  decide

/-! ## A concrete case -/

/-- Sessions set by one interface and read or deleted by another; the depth of one line. -/
def exEvs : List (Int × Ev Char) :=
  [(0, .cli .add [some 5, some 3]), (1, .thrift (.sessGet 5)), (2, .pd 0 (.update 5 4)), (3, .cli .get [some 5]),
   (4, .piSet 5 ⟨true, 0, false, 9, true, 0⟩), (5, .thrift (.mapGet 5)), (6, .cli .get [some 5]), (7, .cli .del [some 5]),
   (8, .piReset 5), (9, .piSet 5 ⟨true, 0, true, 9, true, 100⟩), (10, .cli .del [none]), (11, .cli .add [some 5]),
   (12, .cli .depth [some 1, some 3, some 0]), (13, .queue (.push 3 0 'a' 13 13)), (14, .queue (.push 3 0 'b' 14 14)),
   (15, .queue (.push 3 1 'c' 15 15)), (16, .thrift (.depthPri 3 2 7)), (17, .queue (.push 4 0 'd' 17 17))]

example : seen exEvs = some
    [.cli .fine none, .reply (.config (some 3) none), .reply (.int 1), .cli .fine (some (some 4, none)), .status .success,
     .reply (.int 0xffffffff), .cli .fine (some (none, some 9)), .cli .fine none, .status .targetError, .status .notImplemented,
     .cli .told none, .cli .told none, .cli .fine none, .queue .accepted, .queue .refused, .queue .accepted, .reply .exception,
     .queue .accepted] := by decide

theorem exEvs_possible : ∀ e ∈ exEvs, Possible e.2 := by
  intro e he
  simp only [exEvs, List.mem_cons, List.not_mem_nil, or_false] at he
  rcases he with rfl | rfl | rfl | rfl | rfl | rfl | rfl | rfl | rfl | rfl | rfl | rfl | rfl | rfl | rfl | rfl | rfl | rfl <;>
    simp [Possible, Rpc.want, line, nums, inR, Cmd.Takes, nat?]

example : ∃ s as st, (start 64).run exF exEvs = some (s, as) ∧
    Follows exF { lines := Queueing.emptyLines exF 64 } st exEvs as ∧
    ∀ id, getSession s.sess id = (st.sess id).map fun x => ⟨x.1, x.2⟩ :=
  C112_partial (by decide) 64 exEvs (by decide) exEvs_possible

end Bm.SsMgmt
