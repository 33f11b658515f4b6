import Verif.PubSub.Closed

/-
C128: a subscription ends.
-/
namespace Braid.PubSub
open Spec

theorem end_ps {s : EndState} {a : Act} {t : State} {evs : List Ev} (hs : step s.ps a = some (t, evs)) (hn : returns s.ps a = none) :
    endSys.step s (.ps a) = some ({ s with ps := t }, evs.map .ps) := by
  simp [endSys, endStep, hs, hn]

theorem end_inv {s s' : EndState} {a : Act} {evs : List EndEv} (hs : endStep s (.ps a) = some (s', evs)) :
    ∃ t evs', step s.ps a = some (t, evs') ∧ s'.ps = t ∧ (∀ e, EndEv.ps e ∈ evs ↔ e ∈ evs') := by
  simp only [endStep] at hs
  split at hs
  · cases hs
  · rename_i t evs' ht
    cases hs
    refine ⟨t, evs', ht, rfl, fun e => ?_⟩
    split <;> simp

/-- The subscriber `0` waits, and there is nothing in the stream that its group has not been given. -/
structure Waits (s : EndState) : Prop where
  on : (s.ps.subs 0).on = true
  group : (s.ps.subs 0).group = "a"
  batch : (s.ps.subs 0).batch = []
  buf : (s.ps.subs 0).buf = []
  ack : (s.ps.subs 0).ack = none
  last : s.ps.groups "a" = some s.ps.last
  entries : s.ps.entries = []

/-- The next message goes to it. -/
theorem waits_next {s : EndState} (hw : Waits s) (e : String) (b : List UInt8) (he : e ≠ "") :
    ∃ s', endSys.exec s [.ps (.pub e b 0), .ps (.read 0), .ps (.put 0), .ps (.handle 0), .ps (.del 0 true)] =
      some (s', [.ps (.pub ⟨s.ps.tags, e, b⟩), .ps (.deliver 0 ⟨s.ps.tags, e, b⟩)]) ∧ Waits s' ∧ s'.ps.tags = s.ps.tags + 1 ∧
      s'.gone = s.gone ∧ (s'.ps.subs 1).on = (s.ps.subs 1).on := by
  obtain ⟨h1, h2, h3, h4, h5, h6, h7⟩ := hw
  obtain ⟨⟨entries, last, groups, consumers, subs, tags⟩, gone⟩ := s
  simp only at h1 h2 h3 h4 h5 h6 h7 ⊢
  simp [Lts.exec, endSys, endStep, step, returns, he, h1, h2, h3, h4, h5, h6, h7, unread, advance]
  refine ⟨?_, by simp [upd_apply]⟩
  constructor <;> simp

/-- The messages made of a list of events and bodies, numbered from `k`. -/
def msgsFrom (k : Nat) : List (String × List UInt8) → List Msg
  | [] => []
  | p :: l => ⟨k, p.1, p.2⟩ :: msgsFrom (k + 1) l

/-- Each message is published and delivered to subscriber `0`. -/
def taken (l : List Msg) : List EndEv := l.flatMap fun m => [.ps (.pub m), .ps (.deliver 0 m)]

theorem waits_all : ∀ (l : List (String × List UInt8)) {s : EndState}, Waits s → (∀ p ∈ l, p.1 ≠ "") →
    ∃ as s', endSys.exec s as = some (s', taken (msgsFrom s.ps.tags l)) ∧ Waits s' ∧ s'.gone = s.gone ∧
      (s'.ps.subs 1).on = (s.ps.subs 1).on
  | [], s, hw, _ => ⟨[], s, rfl, hw, rfl, rfl⟩
  | p :: l, s, hw, hl => by
    obtain ⟨s1, h1, h2, h3, h6, h7⟩ := waits_next hw p.1 p.2 (hl p (by simp))
    obtain ⟨as, s2, h4, h5, h8, h9⟩ := waits_all l h2 fun q hq => hl q (List.mem_cons_of_mem _ hq)
    refine ⟨[.ps (.pub p.1 p.2 0), .ps (.read 0), .ps (.put 0), .ps (.handle 0), .ps (.del 0 true)] ++ as, s2, ?_, h5, h8.trans h6,
      h9.trans h7⟩
    rw [Lts.exec_append h1 h4, h3]; rfl

/-- All that is published goes to subscriber `0`. -/
theorem waits_run {h : List EndEv} {s : EndState} (hr : endSys.Run h s) (hw : Waits s) (h0 : s.ps.tags = 0)
    (l : List (String × List UInt8)) (hl : ∀ p ∈ l, p.1 ≠ "") : ∃ s', endSys.Run (h ++ taken (msgsFrom 0 l)) s' ∧
      s'.ps.entries = [] ∧ s'.gone = s.gone ∧ (s'.ps.subs 1).on = (s.ps.subs 1).on := by
  obtain ⟨as, s', h1, h2, h3, h4⟩ := waits_all l hw hl
  rw [h0] at h1
  exact ⟨s', hr.exec h1, h2.entries, h3, h4⟩

theorem taken_mem {l : List Msg} {m : Msg} (h : m ∈ l) : .ps (.pub m) ∈ taken l ∧ .ps (.deliver 0 m) ∈ taken l :=
  ⟨List.mem_flatMap.2 ⟨m, h, by simp⟩, List.mem_flatMap.2 ⟨m, h, by simp⟩⟩

theorem taken_not {l : List Msg} {m : Msg} : .ps (.deliver 1 m) ∉ taken l := by simp [taken]

/-- C128 is violated by `Close`: the only subscriber of a channel is closed, which removes the channel, and another one subscribes to
the channel afterwards. The read loop of the closed one still runs. It may get everything that is published from then on, any number
of messages, and they are deleted: the new subscriber gets none. -/
theorem C128_closed_refuted (l : List (String × List UInt8)) (hl : ∀ p ∈ l, p.1 ≠ "") : ∃ h1 s,
    endSys.Run (h1 ++ .closed 0 :: [.ps (.group "a" false), .ps (.sub 1 "a")] ++ taken (msgsFrom 0 l)) s ∧
      (s.ps.subs 1).on = true ∧ s.ps.entries = [] := by
  have h0 : ∃ s, endSys.Run ([.ps (.group "a" false), .ps (.sub 0 "a"), .ps (.destroyed "a")] ++ .closed 0 ::
      [.ps (.group "a" false), .ps (.sub 1 "a")]) s ∧ Waits s ∧ s.ps.tags = 0 ∧ (s.ps.subs 1).on = true := by
    refine ⟨_, Lts.run_of_exec (M := endSys) (as := [.ps (.sub 0 "a" false), .ps (.read 0), .ps (.close 0), .ps (.close 0),
      .ps (.close 0), .ps (.sub 1 "a" false)]) rfl, ?_, rfl, rfl⟩
    constructor <;> rfl
  obtain ⟨s, hr, hw, ht, ho⟩ := h0
  obtain ⟨s', hr', h1, -, h3⟩ := waits_run hr hw ht l hl
  exact ⟨_, s', hr', h3.trans ho, h1⟩

/-- C128 is violated by `Close` also while another subscriber is there all the time: the closed one becomes a consumer again with its
next read. -/
theorem C128_again_refuted (l : List (String × List UInt8)) (hl : ∀ p ∈ l, p.1 ≠ "") : ∃ h1 s,
    endSys.Run (h1 ++ .closed 0 :: taken (msgsFrom 0 l)) s ∧ .ps (.sub 1 "a") ∈ h1 ∧ (s.ps.subs 1).on = true ∧ s.ps.entries = [] := by
  have h0 : ∃ s, endSys.Run ([.ps (.group "a" false), .ps (.sub 0 "a"), .ps (.sub 1 "a")] ++ [.closed 0]) s ∧ Waits s ∧
      s.ps.tags = 0 ∧ (s.ps.subs 1).on = true := by
    refine ⟨_, Lts.run_of_exec (M := endSys) (as := [.ps (.sub 0 "a" false), .ps (.sub 1 "a" false), .ps (.read 0), .ps (.read 1),
      .ps (.close 0), .ps (.close 0)]) rfl, ?_, rfl, rfl⟩
    constructor <;> rfl
  obtain ⟨s, hr, hw, ht, ho⟩ := h0
  obtain ⟨s', hr', h1, -, h3⟩ := waits_run hr hw ht l hl
  exact ⟨_, s', by rw [List.append_assoc] at hr'; exact hr', by simp, h3.trans ho, h1⟩

/-- C128 is violated by `Exit`: it does not close the channels of the actor. Everything that is published afterwards may go into the
mailbox of the actor that is gone, although a living actor subscribes to the same channel. -/
theorem C128_exited_refuted (l : List (String × List UInt8)) (hl : ∀ p ∈ l, p.1 ≠ "") : ∃ h1 s,
    endSys.Run (h1 ++ .exited 0 :: taken (msgsFrom 0 l)) s ∧ .ps (.sub 1 "a") ∈ h1 ∧ (s.ps.subs 1).on = true ∧
      s.gone 1 = false ∧ s.ps.entries = [] := by
  have h0 : ∃ s, endSys.Run ([.ps (.group "a" false), .ps (.sub 0 "a"), .ps (.sub 1 "a")] ++ [.exited 0]) s ∧ Waits s ∧
      s.ps.tags = 0 ∧ (s.ps.subs 1).on = true ∧ s.gone 1 = false := by
    refine ⟨_, Lts.run_of_exec (M := endSys) (as := [.ps (.sub 0 "a" false), .ps (.sub 1 "a" false), .exit 0]) rfl, ?_, rfl, rfl, rfl⟩
    constructor <;> rfl
  obtain ⟨s, hr, hw, ht, ho, hg⟩ := h0
  obtain ⟨s', hr', h1, h2, h3⟩ := waits_run hr hw ht l hl
  exact ⟨_, s', by rw [List.append_assoc] at hr'; exact hr', by simp, h3.trans ho, by rw [h2, hg], h1⟩

/-- C128 does not hold as stated. -/
theorem C128_refuted : ∃ h s, endSys.Run h s ∧ ¬ Ended h := by
  refine ⟨[.ps (.group "a" false), .ps (.sub 0 "a")] ++ .exited 0 :: [.ps (.pub ⟨0, "e", []⟩), .ps (.deliver 0 ⟨0, "e", []⟩)], _,
    Lts.run_of_exec (M := endSys) (as := [.ps (.sub 0 "a" false), .exit 0, .ps (.pub "e" [] 0), .ps (.read 0), .ps (.put 0),
      .ps (.handle 0)]) rfl, fun he => ?_⟩
  have := he 0 _ _ (.inr rfl) ⟨0, "e", []⟩ (by simp)
  simp at this

/-! ### What holds -/

/-- What is in the stream and on its way was published, and who subscribes to what is known; `Q`: what has happened. -/
structure Known (Q : Ev → Prop) (s : State) : Prop where
  entries : ∀ e ∈ s.entries, Q (.pub e.msg)
  way : ∀ c, ∀ e, e ∈ (s.subs c).batch ∨ e ∈ (s.subs c).buf → Q (.pub e.msg)
  sub : ∀ c g, Q (.sub c g) → (s.subs c).group = g ∧ g ≠ ""

macro "pe_cases" h:ident : tactic => `(tactic| (
  simp only [step] at $h:ident
  repeat' (split at $h:ident)
  all_goals (try (cases $h:ident))))

theorem mem_of_unread {es : List Entry} {l : Nat} {e : Entry} (h : e ∈ unread es l) : e ∈ es :=
  (List.mem_filter.1 (List.mem_of_mem_take h)).1

theorem known_step {Q : Ev → Prop} {s t : State} {a : Act} {evs : List Ev} (hk : Known Q s) (hs : step s a = some (t, evs)) :
    Known (fun e => Q e ∨ e ∈ evs) t := by
  obtain ⟨h1, h2, h3⟩ := hk
  cases a
  all_goals pe_cases hs
  all_goals refine ⟨fun e he => ?_, fun c' e he => ?_, fun c' g' hg => ?_⟩
  all_goals try simp only [upd_apply] at *
  all_goals grind [mem_of_unread]

theorem known_congr {Q R : Ev → Prop} {s : State} (hk : Known Q s) (h : ∀ e, Q e ↔ R e) : Known R s := by
  obtain rfl : Q = R := funext fun e => propext (h e)
  exact hk

theorem known_run {h : List EndEv} {s : EndState} (hr : endSys.Run h s) : Known (fun e => .ps e ∈ h) s.ps := by
  refine hr.invariant (P := fun h s => Known (fun e => .ps e ∈ h) s.ps)
    ⟨by simp [endSys, init], by simp [endSys, init, noSub], by simp⟩ ?_
  intro h s a s' evs _ hi hs
  replace hs : endStep s a = some (s', evs) := hs
  cases a with
  | exit c =>
    simp only [endStep] at hs
    split at hs <;> cases hs
    exact known_congr hi (by simp)
  | ps a =>
    obtain ⟨t, evs', ht, rfl, he⟩ := end_inv hs
    exact known_congr (known_step hi ht) fun e => by simp [he]

/-- After the channel was removed, until it is made again. -/
structure Removed (P : Msg → Prop) (g : String) (s : State) : Prop where
  off : s.groups g = none
  way : ∀ c, (s.subs c).group = g → ∀ e, e ∈ (s.subs c).batch ∨ e ∈ (s.subs c).buf → P e.msg

theorem removed_step {P : Msg → Prop} {g : String} {s t : State} {a : Act} {evs : List Ev} (hk : Removed P g s)
    (hs : step s a = some (t, evs)) (hg : ∀ b, Ev.group g b ∉ evs) : Removed P g t ∧ ∀ c m, Ev.deliver c m ∈ evs →
      (s.subs c).group = g → P m := by
  obtain ⟨h1, h2⟩ := hk
  cases a
  all_goals pe_cases hs
  all_goals refine ⟨⟨?_, fun c' hc e he => ?_⟩, fun c' m' hm hc => ?_⟩
  all_goals try simp only [upd_apply] at *
  all_goals grind

theorem group_step {s t : State} {a : Act} {evs : List Ev} {c : Nat} {g : String} (hs : step s a = some (t, evs))
    (hc : (s.subs c).group = g) (hg : g ≠ "") : (t.subs c).group = g := by
  cases a
  all_goals pe_cases hs
  all_goals try simp only [upd_apply] at *
  all_goals grind

theorem destroyed_step {s t : State} {a : Act} {evs : List Ev} {g : String} (hs : step s a = some (t, evs))
    (hd : .destroyed g ∈ evs) : evs = [.destroyed g] ∧ t.groups g = none ∧
      ∀ d, (t.subs d).batch = (s.subs d).batch ∧ (t.subs d).buf = (s.subs d).buf := by
  cases a
  all_goals pe_cases hs
  all_goals simp only [List.mem_cons, List.not_mem_nil, or_false, reduceCtorEq, Ev.destroyed.injEq] at hd
  subst hd
  refine ⟨rfl, by simp, fun d => ?_⟩
  dsimp only
  simp only [upd_apply]
  split <;> simp_all

theorem removed_exec {P : Msg → Prop} {g : String} (hn : g ≠ "") {as : List EndAct} {s s' : EndState} {evs : List EndEv}
    (hk : Removed P g s.ps) (hx : endSys.exec s as = some (s', evs)) (hg : ∀ b, .ps (.group g b) ∉ evs) {c : Nat} {m : Msg}
    (hc : (s.ps.subs c).group = g) (hm : .ps (.deliver c m) ∈ evs) : P m := by
  induction as generalizing s evs with
  | nil => cases hx; simp at hm
  | cons a as ih =>
    simp only [Lts.exec] at hx
    split at hx
    · cases hx
    split at hx
    · cases hx
    rename_i s1 e1 h1 _ s2 e2 h2
    cases hx
    replace h1 : endStep s a = some (s1, e1) := h1
    simp only [List.mem_append, not_or] at hg hm
    cases a with
    | exit d =>
      simp only [endStep] at h1
      split at h1 <;> cases h1
      exact ih (s := { s with gone := upd s.gone d true }) hk h2 (fun b => (hg b).2) hc (by simpa using hm)
    | ps a =>
      obtain ⟨t, evs', ht, rfl, he⟩ := end_inv h1
      obtain ⟨hk', hd⟩ := removed_step hk ht fun b hb => (hg b).1 ((he _).2 hb)
      rcases hm with hm | hm
      · exact hd c m ((he _).1 hm) hc
      · exact ih hk' h2 (fun b => (hg b).2) (group_step ht hc hn) hm

/-- C128, where it holds: once the last subscriber of a channel was closed and the channel was removed, and until somebody subscribes
to the channel again and makes it anew, what is published goes to none of its former subscribers.
Missing: every other closing, and every exit of an actor (`C128_closed_refuted`, `C128_exited_refuted`), and new subscribers
(`C128_again_refuted`). -/
theorem C128_stops_partial {h1 h2 : List EndEv} {s : EndState} {g : String}
    (hr : endSys.Run (h1 ++ .ps (.destroyed g) :: h2) s) (hg : ∀ b, .ps (.group g b) ∉ h2) {c : Nat} (hc : .ps (.sub c g) ∈ h1)
    {m : Msg} (hm : .ps (.deliver c m) ∈ h2) : .ps (.pub m) ∈ h1 := by
  obtain ⟨h0, s0, a, s1, pre, post, as, rest, hr0, hs, rfl, rfl, hx⟩ := hr.split_at rfl
  replace hs : endStep s0 a = some (s1, pre ++ .ps (.destroyed g) :: post) := hs
  have hk := known_run hr0
  cases a with
  | exit d =>
    simp only [endStep] at hs
    split at hs
    · simp only [Option.some.injEq, Prod.mk.injEq] at hs
      have : EndEv.ps (.destroyed g) ∈ [EndEv.exited d] := by rw [hs.2]; simp
      simp at this
    · cases hs
  | ps a =>
    obtain ⟨t, evs', ht, rfl, he⟩ := end_inv hs
    have hd : .destroyed g ∈ evs' := (he _).1 (by simp)
    obtain ⟨rfl, hoff, hway⟩ := destroyed_step ht hd
    have hmem : ∀ e, EndEv.ps e ∈ pre ∨ EndEv.ps e ∈ post → e = .destroyed g := fun e h => by
      have := (he e).1 (by simp only [List.mem_append, List.mem_cons]; grind)
      simpa using this
    have hc0 : .ps (.sub c g) ∈ h0 := by
      rcases List.mem_append.1 hc with h | h
      · exact h
      · exact absurd (hmem _ (.inl h)) (by simp)
    have hgr := hk.sub c g hc0
    have hrem : Removed (fun m => .ps (.pub m) ∈ h0) g s1.ps :=
      ⟨hoff, fun d _ e h => hk.way d e (by rw [(hway d).1, (hway d).2] at h; exact h)⟩
    have hgr1 : (s1.ps.subs c).group = g := group_step ht hgr.1 hgr.2
    rcases List.mem_append.1 hm with h | h
    · exact absurd (hmem _ (.inr h)) (by simp)
    · exact List.mem_append_left _ (removed_exec hgr.2 hrem hx (fun b hb => hg b (List.mem_append_right _ hb)) hgr1 h)

example : ∃ h1 h2 s, endSys.Run (h1 ++ .ps (.destroyed "a") :: h2) s ∧ (∀ b, .ps (.group "a" b) ∉ h2) ∧ .ps (.sub 0 "a") ∈ h1 ∧
    .ps (.deliver 0 ⟨0, "e", []⟩) ∈ h2 ∧ .ps (.pub ⟨1, "e", []⟩) ∈ h2 :=
  ⟨[.ps (.group "a" false), .ps (.sub 0 "a"), .ps (.pub ⟨0, "e", []⟩)],
    [.closed 0, .ps (.deliver 0 ⟨0, "e", []⟩), .ps (.pub ⟨1, "e", []⟩)], _,
    Lts.run_of_exec (M := endSys) (as := [.ps (.sub 0 "a" false), .ps (.pub "e" [] 0), .ps (.read 0), .ps (.close 0), .ps (.close 0),
      .ps (.close 0), .ps (.put 0), .ps (.handle 0), .ps (.pub "e" [] 0), .ps (.read 0)]) rfl, by simp, by simp, by simp, by simp⟩

/-! ### The goroutines -/

/-- Who runs: `Q`: what has happened. -/
structure Runs (Q : Ev → Prop) (s : State) : Prop where
  runs : ∀ c g, Q (.sub c g) → ¬ Q (.crash c) → (s.subs c).on = true
  off : ∀ c, Q (.crash c) → (s.subs c).on = false ∧ (s.subs c).group ≠ ""
  named : ∀ c, (s.subs c).on = true → (s.subs c).group ≠ ""

theorem runs_step {Q : Ev → Prop} {s t : State} {a : Act} {evs : List Ev} (hk : Runs Q s) (hs : step s a = some (t, evs)) :
    Runs (fun e => Q e ∨ e ∈ evs) t ∧ ∀ c m, Ev.deliver c m ∈ evs → ¬ Q (.crash c) := by
  obtain ⟨h1, h2, h3⟩ := hk
  cases a
  all_goals pe_cases hs
  all_goals refine ⟨⟨fun c' g' hc hn => ?_, fun c' hc => ?_, fun c' hc => ?_⟩, fun c' m' hm hc => ?_⟩
  all_goals try simp only [upd_apply] at *
  all_goals grind

theorem deliver_step {s t : State} {a : Act} {evs : List Ev} {c : Nat} {m : Msg} (hs : step s a = some (t, evs))
    (hd : .deliver c m ∈ evs) : evs = [.deliver c m] := by
  cases a
  all_goals pe_cases hs
  all_goals simp only [List.mem_cons, List.not_mem_nil, or_false, reduceCtorEq] at hd
  rw [hd]

theorem runs_run {h : List EndEv} {s : EndState} (hr : endSys.Run h s) : Runs (fun e => .ps e ∈ h) s.ps := by
  refine hr.invariant (P := fun h s => Runs (fun e => .ps e ∈ h) s.ps)
    ⟨by simp, by simp, by simp [endSys, init, noSub]⟩ ?_
  intro h s a s' evs _ hi hs
  replace hs : endStep s a = some (s', evs) := hs
  cases a with
  | exit c =>
    simp only [endStep] at hs
    split at hs <;> cases hs
    have : (fun e => EndEv.ps e ∈ h ++ [.exited c]) = fun e => EndEv.ps e ∈ h := by funext e; simp
    rw [this]; exact hi
  | ps a =>
    obtain ⟨t, evs', ht, rfl, he⟩ := end_inv hs
    have : (fun e => EndEv.ps e ∈ h ++ evs) = fun e => EndEv.ps e ∈ h ∨ e ∈ evs' := by funext e; simp [he]
    rw [this]; exact (runs_step hi ht).1

/-- The read loop of a subscription never ends while its process runs: whatever was closed, removed or dropped, and whether its actor
has exited or not, it can always take its next step, to read again or to hand over what it has read (`exitFlag` is never set). -/
theorem C128_loop_refuted {h : List EndEv} {s : EndState} (hr : endSys.Run h s) {c : Nat} {g : String} (hc : .ps (.sub c g) ∈ h)
    (hn : .ps (.crash c) ∉ h) : (∃ x, endSys.step s (.ps (.read c)) = some x) ∨ ∃ x, endSys.step s (.ps (.put c)) = some x := by
  have hon := (runs_run hr).runs c g hc hn
  cases hb : (s.ps.subs c).batch with
  | nil =>
    left
    cases hg : s.ps.groups (s.ps.subs c).group <;> simp [endSys, endStep, step, hon, hb, hg]
  | cons e r => right; simp [endSys, endStep, step, hon, hb]

/-- Without its channel in Redis the loop reads again and again and waits for nothing: each XREADGROUP fails at once and leaves
everything as it is. -/
theorem C128_spin_refuted {s : EndState} {c : Nat} (hc : (s.ps.subs c).on = true) (hb : (s.ps.subs c).batch = [])
    (hg : s.ps.groups (s.ps.subs c).group = none) (n : Nat) : endSys.exec s (List.replicate n (.ps (.read c))) = some (s, []) := by
  have h1 : endSys.step s (.ps (.read c)) = some (s, []) := by simp [endSys, endStep, step, returns, hc, hb, hg]
  induction n with
  | zero => rfl
  | succ n ih => rw [List.replicate_succ]; exact Lts.exec_cons h1 ih

example : ∃ h s, endSys.Run h s ∧ .closed 0 ∈ h ∧ (s.ps.subs 0).on = true ∧ (s.ps.subs 0).batch = [] ∧
    s.ps.groups (s.ps.subs 0).group = none :=
  ⟨[.ps (.group "a" false), .ps (.sub 0 "a"), .ps (.destroyed "a"), .closed 0], _,
    Lts.run_of_exec (M := endSys) (as := [.ps (.sub 0 "a" false), .ps (.close 0), .ps (.close 0), .ps (.close 0)]) rfl,
    by simp, rfl, rfl, rfl⟩

/-- C128, where it holds: a subscriber whose process has ended gets nothing more. -/
theorem C128_process_partial {h1 h2 : List EndEv} {s : EndState} {c : Nat} (hr : endSys.Run (h1 ++ .ps (.crash c) :: h2) s) (m : Msg) :
    .ps (.deliver c m) ∉ h2 := by
  intro hm
  obtain ⟨h3, h4, rfl⟩ := List.append_of_mem hm
  have he : h1 ++ EndEv.ps (.crash c) :: (h3 ++ EndEv.ps (.deliver c m) :: h4) =
      (h1 ++ EndEv.ps (.crash c) :: h3) ++ EndEv.ps (.deliver c m) :: h4 := by simp
  obtain ⟨h0, s0, a, s1, pre, post, as, rest, hr0, hs, h5, -, -⟩ := hr.split_at he
  replace hs : endStep s0 a = some (s1, pre ++ .ps (.deliver c m) :: post) := hs
  cases a with
  | exit d =>
    simp only [endStep] at hs
    split at hs
    · simp only [Option.some.injEq, Prod.mk.injEq] at hs
      have : EndEv.ps (.deliver c m) ∈ [EndEv.exited d] := by rw [hs.2]; simp
      simp at this
    · cases hs
  | ps a =>
    obtain ⟨t, evs', ht, rfl, hes⟩ := end_inv hs
    have hd : .deliver c m ∈ evs' := (hes _).1 (by simp)
    obtain rfl := deliver_step ht hd
    have hpre : .ps (.crash c) ∈ h0 := by
      have : EndEv.ps (.crash c) ∈ h0 ++ pre := by rw [← h5]; simp
      rcases List.mem_append.1 this with h | h
      · exact h
      · have := (hes (.crash c)).1 (List.mem_append_left _ h)
        simp at this
    exact (runs_step (runs_run hr0) ht).2 c m hd hpre

example : ∃ h s, endSys.Run (h ++ .ps (.crash 0) :: [.ps (.pub ⟨0, "e", []⟩), .ps (.deliver 1 ⟨0, "e", []⟩)]) s :=
  ⟨[.ps (.group "a" false), .ps (.sub 0 "a"), .ps (.sub 1 "a")], _,
    Lts.run_of_exec (M := endSys) (as := [.ps (.sub 0 "a" false), .ps (.sub 1 "a" false), .ps (.crash 0), .ps (.pub "e" [] 0),
      .ps (.read 1), .ps (.put 1), .ps (.handle 1)]) rfl⟩

end Braid.PubSub
