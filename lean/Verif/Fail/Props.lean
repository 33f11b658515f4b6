import Verif.Fail.Lemmas

/-
C115: what the result of `Call` says about the handler.
-/
namespace Braid.Fail
variable {E D : Type}

/-- **C115, what nil says**: when a call has returned nil and its waiter had not given up, the actor had handled the message
before, with some outcome: it may have failed or panicked, and there may have been no handler at all. The full statement,
`NilMeansSuccess`, is false (`C115_refuted`). -/
theorem C115_nil_partial {cfg : Cfg E D} {h h1 h2 : List (Ev E D)} {s : State E D} (hr : (sys cfg).Run h s) {c : Nat}
    (hh : h = h1 ++ Ev.ret c none :: h2) (ht : Ev.timeout c ∉ h1) : ∃ o w, Ev.handled c o w ∈ h1 := by
  obtain ⟨h0, s0, a, s1, pre, post, as, rest, hr0, hs, rfl, -, -⟩ := hr.split_at hh
  have i1 := inv_run (Lts.Run.step hr0 hs)
  obtain ⟨x, hx⟩ := i1.there c (i1.old (Ev.ret c none) (by simp))
  obtain ⟨w0, g⟩ := i1.good c x hx
  have hc := (g.ret none).1 (by simp)
  obtain ⟨hw, hoff⟩ := g.nil hc
  have hev : pre = [] ∧ post = [] := by
    have hs : step cfg s0 a = some (s1, pre ++ Ev.ret c none :: post) := hs
    cases a <;> simp only [step] at hs <;> (repeat' split at hs) <;> simp at hs
    all_goals
      obtain ⟨_, hs⟩ := hs
      rcases pre with _ | ⟨p, _ | ⟨q, pre⟩⟩ <;> simp at hs <;> simp [hs]
  obtain ⟨rfl, rfl⟩ := hev
  simp only [List.append_nil, List.nil_append] at *
  have hd := g.tmo (by simp [ht]) hoff (by rw [hw]; nofun)
  obtain ⟨o, w, hm⟩ := g.hnd.2 (.inr hd)
  exact ⟨o, w, by simpa using hm⟩

/-- **C115, what is left in the wrapper**: when a call has returned nil and its waiter has not given up, the wrapper holds
exactly what the hooks and the handler of the event have made of the one that was sent, up to where they failed. So a
handler that stores its error in `Err` tells the caller, and one that only returns it does not. -/
theorem C115_left_partial {cfg : Cfg E D} {h : List (Ev E D)} {s : State E D} (hr : (sys cfg).Run h s) {c a : Nat} {ev : String}
    {w0 : Wrap E D} (hb : Ev.begin c a ev w0 ∈ h) (hn : Ev.ret c none ∈ h) (ht : Ev.timeout c ∉ h) :
    ∃ x w o, s.call c = some x ∧ x.w = w ∧ Ev.handled c o w ∈ h ∧ Handles cfg a ev w0 w o := by
  have i := inv_run hr
  obtain ⟨x, hx⟩ := i.there c (i.old _ hn)
  obtain ⟨w0', g⟩ := i.good c x hx
  obtain ⟨rfl, rfl, rfl⟩ := g.uniq _ _ _ hb
  have hc := (g.ret none).1 hn
  obtain ⟨hw, hoff⟩ := g.nil hc
  have hd := g.tmo ht hoff (by rw [hw]; nofun)
  have hctx : Ev.ctxEnded c ∉ h := by
    intro hx; obtain ⟨e, he⟩ := g.ctx hx; rw [hc] at he; cases he
  obtain ⟨h1, h2⟩ := g.w2 ht hctx (.inr hd)
  exact ⟨x, _, _, hx, h2, h1, handle_handles ..⟩

/-- **C115, the result exactly**: a call that has returned has returned nil unless `Received` refused the message or the
context ended first. In the first case the error is the one of `Received`, in the second one of `localCall` itself. -/
theorem C115_result {cfg : Cfg E D} {h : List (Ev E D)} {s : State E D} (hr : (sys cfg).Run h s) {c : Nat} {r : Option E}
    (hc : Ev.ret c r ∈ h) :
    (r = none ↔ (∀ e, Ev.refused c e ∉ h) ∧ Ev.ctxEnded c ∉ h) ∧
    (∀ e, r = some e → Ev.refused c e ∈ h ∨ (Ev.ctxEnded c ∈ h ∧ ∃ k, e = cfg.ctxErr k)) ∧
    (∀ e, Ev.refused c e ∈ h → r = some e) := by
  have i := inv_run hr
  obtain ⟨x, hx⟩ := i.there c (i.old _ hc)
  obtain ⟨w0, g⟩ := i.good c x hx
  have hret := (g.ret r).1 hc
  refine ⟨⟨?_, ?_⟩, ?_, ?_⟩
  · intro hn
    subst hn
    refine ⟨fun e he => ?_, fun he => ?_⟩
    · have := (g.ref e he).1; rw [hret] at this; cases this
    · obtain ⟨e, he⟩ := g.ctx he; rw [hret] at he; cases he
  · rintro ⟨h1, h2⟩
    cases r with
    | none => rfl
    | some e =>
      rcases g.fail e hret with h3 | h3
      · exact absurd h3.1 (h1 e)
      · exact absurd h3.1 h2
  · intro e he
    subst he
    rcases g.fail e hret with h3 | h3
    · exact .inl h3.1
    · exact .inr ⟨h3.1, h3.2.2⟩
  · intro e he
    have := (g.ref e he).1; rw [hret] at this; cases this; rfl

/-- **C115, callers cannot tell**: take any other hooks, handlers and error texts. Whatever can happen with the ones can happen with the
others, with the same calls, in the same order, returning nil or an error alike: no result of `Call`, and nothing about when
it comes, depends on whether handlers fail. -/
theorem C115_blind {cfg : Cfg E D} (cfg' : Cfg E D) {h : List (Ev E D)} {s : State E D} (hr : (sys cfg).Run h s) :
    ∃ h' s', (sys cfg').Run h' s' ∧ h'.map see = h.map see := by
  obtain ⟨h', t, hr', hh, _⟩ := sim_run (cfg' := cfg') hr
  exact ⟨h', t, hr', hh⟩

/-- **C115, failures do no harm**: whatever handlers do, fail and panic included, actors and waiters stop after at most six
steps per call, without any timeout; and when they have stopped, every message that an actor accepted has been
handled and its call has returned. -/
theorem C115_goes_on {cfg : Cfg E D} {h : List (Ev E D)} {s : State E D} (hr : (sys cfg).Run h s) :
    (∀ as s' evs, (∀ a ∈ as, Internal a) → (sys cfg).exec s as = some (s', evs) → as.length ≤ 6 * s.n) ∧
    ((∀ a, Internal a → step cfg s a = none) →
      ∀ c, Ev.accepted c ∈ h → (∃ o w, Ev.handled c o w ∈ h) ∧ ∃ r, Ev.ret c r ∈ h) := by
  have i := inv_run hr
  refine ⟨fun as s' evs ha he => ?_, fun hq c hc => at_rest i hq hc⟩
  have := work_exec i ha he
  have := work_le s
  omega

/-- **C115 is false**. However a handler ends, there is a run in which the call returns nil after it, with no timeout and no
ended context: so as soon as one handler can fail, or one event has no handler, nil does not mean success. And with
handlers that never fail nil does not mean success either: it also comes when the waiter has given up before the
message was handled. -/
theorem C115_refuted (cfg : Cfg E D) :
    (∀ a ev w w' o, Handles cfg a ev w w' o →
      ∃ s, (sys cfg).Run [Ev.begin 0 a ev w, .accepted 0, .handled 0 o w', .ret 0 none] s) ∧
    (∀ _ : D, ¬ NilMeansSuccess cfg) := by
  refine ⟨fun a ev w w' o h => ?_, fun d hn => ?_⟩
  · have := one_call cfg a ev w
    rw [handles_handle h] at this
    exact this
  · obtain ⟨s, hr⟩ := one_late cfg 0 "" ⟨none, d⟩
    obtain ⟨w, hw⟩ := hn _ _ 0 hr (by simp)
    simp at hw

/-! ## Examples -/

/-- An actor with a handler that always fails, and one that panics after it has written. -/
def failing : Cfg String Nat where
  chain _ ev :=
    if ev = "fail" then some ⟨[], [], some fun w => (w, .err "no gold")⟩
    else if ev = "panic" then some ⟨[], [], some fun w => ({ w with data := 7 }, .panic)⟩
    else if ev = "tell" then some ⟨[], [], some fun w => ({ w with err := some "no gold" }, .err "no gold")⟩
    else if ev = "ok" then some ⟨[], [], some fun w => ({ w with data := w.data + 1 }, .ok)⟩ else none
  waitTimeout := "wait timeout"
  ctxErr e := "timed out" ++ e.getD ""

/-- A failing handler, a panicking one and an unknown event: nil each time. -/
example : ∃ s, (sys failing).Run [Ev.begin 0 3 "fail" ⟨none, 1⟩, .accepted 0, .handled 0 (.err "no gold") ⟨none, 1⟩, .ret 0 none] s :=
  one_call failing 3 "fail" ⟨none, 1⟩
example : ∃ s, (sys failing).Run [Ev.begin 0 3 "panic" ⟨none, 1⟩, .accepted 0, .handled 0 .panic ⟨none, 7⟩, .ret 0 none] s :=
  one_call failing 3 "panic" ⟨none, 1⟩
example : ∃ s, (sys failing).Run [Ev.begin 0 3 "who" ⟨none, 1⟩, .accepted 0, .handled 0 .unknown ⟨none, 1⟩, .ret 0 none] s :=
  one_call failing 3 "who" ⟨none, 1⟩
example : ∃ s, (sys failing).Run [Ev.begin 0 3 "tell" ⟨none, 1⟩, .accepted 0, .handled 0 (.err "no gold") ⟨some "no gold", 1⟩, .ret 0 none] s :=
  one_call failing 3 "tell" ⟨none, 1⟩
example : Handles failing 3 "fail" ⟨none, 1⟩ ⟨none, 1⟩ (.err "no gold") := .inr ⟨_, rfl, rfl, .inr (.inl ⟨_, rfl, rfl⟩)⟩
example : ¬ NilMeansSuccess failing := (C115_refuted failing).2 0

/-- A panic, then a call to the same actor that succeeds, and a third one whose context ends. -/
def busyRun : List (Act String Nat) :=
  [.begin 3 "panic" ⟨none, 1⟩, .begin 3 "ok" ⟨none, 1⟩, .begin 3 "ok" ⟨none, 5⟩, .recv 0 none, .recv 1 none, .recv 2 none, .take 3,
    .run 3, .ctxEnd 2, .release 3, .take 3, .run 3, .waiter 0 false, .waiter 0 false, .release 3, .ret 0, .waiter 1 false,
    .waiter 1 false, .ret 1]

/-- A call after which nothing is left to do. -/
example : ∃ s, (sys failing).exec init [.begin 3 "fail" ⟨none, 1⟩, .recv 0 none, .take 3, .run 3, .release 3, .waiter 0 false,
    .waiter 0 false, .ret 0] = some (s, [Ev.begin 0 3 "fail" ⟨none, 1⟩, .accepted 0, .handled 0 (.err "no gold") ⟨none, 1⟩, .ret 0 none]) ∧
    ∀ a, Internal a → step failing s a = none := by
  refine ⟨_, rfl, ?_⟩
  rintro (_ | _ | a | a | a | ⟨c, _ | _⟩ | c | _) h <;> first | cases h; done | skip
  · by_cases e : a = 3 <;> simp [step, setCall, upd_apply, init, e]
  · by_cases e : a = 3 <;> simp [step, setCall, upd_apply, init, e]
  · by_cases e : a = 3 <;> simp [step, setCall, upd_apply, init, e]
  · by_cases e : c = 0 <;> simp [step, setCall, upd_apply, init, e]
  · by_cases e : c = 0 <;> simp [step, setCall, upd_apply, init, e]

example : ((sys failing).exec init busyRun).map (fun r => r.2.length) = some 12 := by decide +kernel

end Braid.Fail
