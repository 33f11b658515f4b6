import Verif.Race.Wrap
import Verif.Fail.Props

/-
C123: data races for message wrappers.
-/
namespace Braid.Race
open Braid

variable {E D : Type}

/-- Uses by callers are not seen. -/
theorem wrun {cfg : Fail.Cfg E D} {h : List (Fail.Ev E D)} {s : Fail.State E D} (hr : (wsys cfg).Run h s) :
    (Fail.sys cfg).Run h s := by
  induction hr with
  | init => exact .init
  | @step h s a s' evs _ hs hi =>
    cases a with
    | call a => exact hi.step (a := a) hs
    | use c =>
      simp only [wsys, wstep] at hs
      repeat' split at hs
      all_goals cases hs
      simpa using hi

theorem run_of_run {cfg : Fail.Cfg E D} {h : List (Fail.Ev E D)} {s : Fail.State E D} (hr : (Fail.sys cfg).Run h s) :
    (wsys cfg).Run h s := by
  induction hr with
  | init => exact .init
  | @step h s a s' evs _ hs hi => exact hi.step (M := wsys cfg) (a := .call a) hs

/-- **C123**: the accesses are those of the model. A step that changes the wrapper of a call is recorded as a write to it. -/
theorem C123_writes {cfg : Fail.Cfg E D} {h : List (Fail.Ev E D)} {s s1 : Fail.State E D} {a : WAct E D} {evs : List (Fail.Ev E D)}
    (hr : (wsys cfg).Run h s) (hs : (wsys cfg).step s a = some (s1, evs)) {c : Nat} {x x1 : Fail.Call E D}
    (hx : s.call c = some x) (hx1 : s1.call c = some x1) (hw : x1.w ≠ x.w) : ⟨c, true⟩ ∈ wrapAcc cfg s a := by
  have hlt : c ≠ s.n := Nat.ne_of_lt ((Fail.inv_run (wrun hr)).lt hx)
  have b1 := (Fail.inv_run (wrun hr)).b1
  cases a with
  | use d => exact List.mem_singleton.2 (by
      simp only [wsys, wstep] at hs
      repeat' split at hs
      all_goals cases hs
      rw [hx] at hx1; cases hx1; exact absurd rfl hw)
  | call a =>
    replace hs : Fail.step cfg s a = some (s1, evs) := hs
    cases a <;> simp only [Fail.step, Fail.setCall] at hs <;> repeat' split at hs
    all_goals cases hs
    all_goals simp only [upd_apply] at hx1
    all_goals (try split at hx1)
    all_goals first
      | grind [wrapAcc, Fail.handle]
      | (simp_all only [wrapAcc, Option.some.injEq]
         subst_vars
         rename_i z _ _ _ _
         rcases z with ⟨_, _, ⟨_ | _, _⟩, _, _, _⟩ <;> simp_all)

/-- While a message is handled its call has not returned, unless its waiter has given up or its context has ended. -/
theorem not_returned {cfg : Fail.Cfg E D} {h : List (Fail.Ev E D)} {s : Fail.State E D} (i : Fail.Inv cfg h s) {c : Nat}
    {z : Fail.Call E D} (hz : s.call c = some z) (hr : ∃ r, z.c = .returned r) (hm : z.m = .handling) :
    Fail.Ev.timeout c ∈ h ∨ Fail.Ev.ctxEnded c ∈ h := by
  obtain ⟨r, hr⟩ := hr
  obtain ⟨w0, g⟩ := i.good c z hz
  cases r with
  | none =>
    obtain ⟨g1, g2⟩ := g.nil hr
    by_cases ht : Fail.Ev.timeout c ∈ h
    · exact .inl ht
    · have := g.tmo ht g2 (by rw [g1]; simp)
      rw [hm] at this; cases this
  | some e =>
    rcases g.fail e hr with ⟨-, g1⟩ | ⟨g1, -⟩
    · rw [hm] at g1; cases g1
    · exact .inr g1

/-- **C123**, where the races are: two goroutines race for the wrapper of a call only after, or by, the end of the context of this
call or its waiter that gave up. So while no call times out, nobody races for a wrapper, whatever handlers and callers do with it. -/
theorem C123_only_partial {cfg : Fail.Cfg E D} {h : List (Fail.Ev E D)} {s s1 s2 : Fail.State E D} {a b : WAct E D}
    {e1 e2 : List (Fail.Ev E D)} (hr : (wsys cfg).Run h s) (h1 : (wsys cfg).step s a = some (s1, e1))
    (h2 : (wsys cfg).step s1 b = some (s2, e2)) (hw : wrapWho a ≠ wrapWho b) {x y : Acc Nat} (hx : x ∈ wrapAcc cfg s a)
    (hy : y ∈ wrapAcc cfg s1 b) (hv : x.var = y.var) :
    Fail.Ev.timeout x.var ∈ h ++ e1 ++ e2 ∨ Fail.Ev.ctxEnded x.var ∈ h ++ e1 ++ e2 := by
  have i := Fail.inv_run (wrun hr)
  -- who uses a wrapper
  have who : ∀ (t t' : Fail.State E D) (d : WAct E D) (z : Acc Nat) (e : List (Fail.Ev E D)),
      (wsys cfg).step t d = some (t', e) → z ∈ wrapAcc cfg t d →
      (Fail.Ev.timeout z.var ∈ e ∨ Fail.Ev.ctxEnded z.var ∈ e) ∨ d = .use z.var ∨
        ∃ r, d = .call (.run r) ∧ t.busy r = some z.var := by
    intro t t' d z e hs hz
    cases d with
    | use c => simp [wrapAcc] at hz; simp [hz]
    | call d =>
      cases d with
      | run r =>
        simp only [wrapAcc] at hz
        repeat' split at hz
        all_goals simp at hz
        rename_i hb _ _ _
        exact .inr (.inr ⟨r, rfl, by rw [hb, hz]⟩)
      | waiter c t =>
        cases t
        · simp [wrapAcc] at hz
        · refine .inl (.inl ?_)
          simp only [wsys, wstep, Fail.step] at hs
          simp only [wrapAcc] at hz
          grind
      | ctxEnd c =>
        refine .inl (.inr ?_)
        simp only [wrapAcc] at hz
        simp only [wsys, wstep, Fail.step] at hs
        grind
      | _ => simp [wrapAcc] at hz
  have old : ∀ c, Fail.Ev.timeout c ∈ h ∨ Fail.Ev.ctxEnded c ∈ h →
      Fail.Ev.timeout c ∈ h ++ e1 ++ e2 ∨ Fail.Ev.ctxEnded c ∈ h ++ e1 ++ e2 :=
    fun c hc => hc.imp (fun h => by simp [h]) fun h => by simp [h]
  rcases who s s1 a x e1 h1 hx with ha | ha | ⟨r, ha, hb⟩
  · exact ha.imp (fun h => by simp [h]) fun h => by simp [h]
  · rcases who s1 s2 b y e2 h2 hy with hb | hb | ⟨r, hb, hb'⟩
    · exact hb.imp (fun h => by simp [hv, h]) fun h => by simp [hv, h]
    · exact absurd (by rw [ha, hb, hv]) hw
    · -- the caller, then the handler
      subst ha hb
      simp only [wsys, wstep] at h1
      split at h1
      · rename_i z hz
        split at h1
        · rename_i r' hr'
          cases h1
          have hm : z.m = .handling := by
            simp only [wsys, wstep, Fail.step, hb', ← hv, hz] at h2
            split at h2
            · assumption
            · cases h2
          exact old _ (not_returned i hz ⟨r', hr'⟩ hm)
        · cases h1
      · cases h1
  · subst ha
    obtain ⟨z, hz, hza, -⟩ := i.b1 r _ hb
    have hstep : ∃ z1, s1 = Fail.setCall s x.var z1 ∧ z1.c = z.c ∧ z.m = .handling := by
      simp only [wsys, wstep, Fail.step, hb, hz] at h1
      split at h1
      · rename_i hm
        cases h1
        exact ⟨_, rfl, rfl, hm⟩
      · cases h1
    obtain ⟨z1, hs1, hc1, hm⟩ := hstep
    rcases who s1 s2 b y e2 h2 hy with hb' | hb' | ⟨r', hb', hb''⟩
    · exact hb'.imp (fun h => by simp [hv, h]) fun h => by simp [hv, h]
    · -- the handler, then the caller
      subst hb'
      have hret : ∃ q, z.c = .returned q := by
        rw [hs1, ← hv] at h2
        simp only [wsys, wstep, Fail.setCall, upd_same] at h2
        split at h2
        · rename_i q hq
          exact ⟨q, by rw [← hc1, hq]⟩
        · cases h2
      exact old _ (not_returned i hz hret hm)
    · rw [hs1] at hb''
      obtain ⟨z', hz', hza', -⟩ := i.b1 r' _ hb''
      rw [← hv, hz] at hz'
      cases hz'
      exact absurd (by rw [hb', ← hza, ← hza']) hw

/-- **C123** is violated by every handler: while it runs the context of its caller can end, who then reads and writes `Err`. -/
theorem C123_ctx_refuted (cfg : Fail.Cfg E D) (a : Nat) (ev : String) (hch : (cfg.chain a ev).isSome = true) (w : Fail.Wrap E D) :
    ∃ h s, (wsys cfg).Run h s ∧ RaceAt (wsys cfg) wrapWho (wrapAcc cfg) s (.call (.run a)) (.call (.ctxEnd 0)) := by
  have key : ∃ s, (Fail.sys cfg).exec (Fail.sys cfg).init [.begin a ev w, .recv 0 none, .take a] =
      some (s, [Fail.Ev.begin 0 a ev w, .accepted 0]) ∧ s.busy a = some 0 ∧
      s.call 0 = some ⟨a, ev, w, .wait, .handling, .waiting⟩ := by
    simp [Lts.exec, Fail.sys, Fail.init, Fail.step, Fail.setCall]
  obtain ⟨s, hs, hb, hc⟩ := key
  refine ⟨_, s, run_of_run (Lts.run_of_exec hs), ?_⟩
  simp [RaceAt, wsys, wstep, Fail.step, hb, hc, Fail.setCall, wrapWho, wrapAcc, hch, Conflict]

/-- **C123** is violated by callers who use the wrapper of a call that has returned: the waiter gave up, `Call` returned nil, and
the handler starts. -/
theorem C123_returned_refuted (cfg : Fail.Cfg E D) (a : Nat) (ev : String) (hch : (cfg.chain a ev).isSome = true) (w : Fail.Wrap E D) :
    ∃ h s, (wsys cfg).Run h s ∧ Fail.Ev.ret 0 none ∈ h ∧
      RaceAt (wsys cfg) wrapWho (wrapAcc cfg) s (.use 0) (.call (.run a)) := by
  have key : ∃ s w', (Fail.sys cfg).exec (Fail.sys cfg).init [.begin a ev w, .recv 0 none, .waiter 0 true, .waiter 0 false, .ret 0,
        .take a] = some (s, [Fail.Ev.begin 0 a ev w, .accepted 0, .timeout 0, .ret 0 none]) ∧ s.busy a = some 0 ∧
      s.call 0 = some ⟨a, ev, w', .returned none, .handling, .closed⟩ := by
    simp [Lts.exec, Fail.sys, Fail.init, Fail.step, Fail.setCall]
  obtain ⟨s, w', hs, hb, hc⟩ := key
  refine ⟨_, s, run_of_run (Lts.run_of_exec hs), by simp, ?_⟩
  simp [RaceAt, wsys, wstep, Fail.step, hb, hc, Fail.setCall, wrapWho, wrapAcc, hch, Conflict]

/-- A handler that has been called, and a caller who uses the wrapper of an earlier call to the same actor. -/
example : ∃ h s, (wsys Fail.failing).Run h s ∧ wrapAcc Fail.failing s (.call (.run 3)) = [⟨1, true⟩] ∧
    (wstep Fail.failing s (.use 0)).isSome = true ∧ ∀ c, Fail.Ev.timeout c ∉ h ∧ Fail.Ev.ctxEnded c ∉ h := by
  refine ⟨_, _, run_of_run (Lts.run_of_exec (M := Fail.sys Fail.failing) (as := [.begin 3 "ok" ⟨none, 1⟩, .begin 3 "ok" ⟨none, 2⟩,
    .recv 0 none, .recv 1 none, .take 3, .run 3, .release 3, .waiter 0 false, .waiter 0 false, .ret 0, .take 3]) rfl), rfl, rfl, ?_⟩
  simp [Fail.sys, Fail.init]

end Braid.Race
