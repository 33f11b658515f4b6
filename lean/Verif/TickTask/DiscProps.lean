import Verif.TickTask.DiscStep
import Verif.TickTask.Props

/-
C61 and C62 for disciplined callers, who call one at a time, stop a task only once its goroutine has made its ticker, and
start a stopped task only once its goroutine waits.
-/
namespace Braid.TickTask

/-- **C61**, another part that holds: a task may be stopped and started again any number of times, and still runs its
handler one at a time, if its callers are disciplined and nothing panics. What is missing: other callers
(`C61_restart_refuted`) and panics (`C61_panic_refuted`). -/
theorem C61_disciplined_partial (c : Cfg) {h : List Ev} {s : State} (hr : DiscRun c h s) (hp : panics h = 0) :
    OneAtATime h :=
  (discRun_good hr hp).1.1

/-- **C62**, another part that holds: with disciplined callers and no panics no stop crashes the process, and between an
effective stop and the next effective start at most two handler calls begin, however often the task was restarted. What is
missing: other callers, panics, and no call at all. -/
theorem C62_disciplined_partial (c : Cfg) {h h1 h2 : List Ev} {s : State} {p : Nat} (hr : DiscRun c h s)
    (hp : panics h = 0) :
    NoStopCrash h ∧ (h = h1 ++ Ev.stopRet p true :: h2 → starts h2 = 0 → begins h2 ≤ 2) := by
  obtain ⟨⟨_, g2, g3⟩, _⟩ := discRun_good hr hp
  refine ⟨g3, fun he hs => ?_⟩
  obtain ⟨m, hm⟩ := since_stop (h1 := h1) (p := p) hs
  rw [← he] at hm
  have := g2 _ hm
  omega

/-- **C62**: a task stopped by disciplined callers comes to rest. Its goroutines make at most nine more steps before the
next start, and while it is not at rest one of them can make a step. So a disciplined caller can always start it again. -/
theorem C62_comes_to_rest (c : Cfg) {h : List Ev} {s : State} (hr : DiscRun c h s) (hp : panics h = 0)
    (hc : s.crashed = false) (ht : s.tstate = .stop) :
    (∀ as s' evs, (∀ a ∈ as, ∃ l skip, a = Act.loop l false skip) → (sys c).exec s as = some (s', evs) →
      as.length ≤ 9) ∧
    (AtRest s ∨ ∃ l s' evs, step c s (.loop l false false) = some (s', evs)) := by
  obtain ⟨_, ⟨φ, D⟩ | hx⟩ := discRun_good hr hp
  · have hts := D.ts
    rw [ht] at hts
    obtain ⟨d, hd, _⟩ := D.is
    have weak : ∀ l, Parked s l → s.loop l = .off ∨ ∃ k, s.loop l = .recv k ∧ s.tk k = ⟨true, false⟩ := by
      intro l hl
      exact hl.imp id (fun ⟨k, h1, h2, _⟩ => ⟨k, h1, h2⟩)
    rcases hts with rfl | ⟨L, K, rfl⟩
    · refine ⟨fun as s' evs ha he => ?_, .inl ⟨hd.1, fun l => weak l (hd.2.1 l)⟩⟩
      rw [quiet_exec hd.2.1 ha he]; simp
    · refine ⟨fun as s' evs ha he => Nat.le_trans (rank_exec D ha he) (rank_le s L K), ?_⟩
      obtain ⟨h1, h2, h3, h4, h5, h6, h7, h8⟩ := hd
      by_cases hw : s.loop L = .recv K ∧ (s.tk K).full = false
      · refine .inl ⟨h1, fun l => ?_⟩
        by_cases e : l = L
        · subst e
          refine .inr ⟨K, hw.1, ?_⟩
          cases hk : s.tk K with
          | mk a b => rw [hk] at h7; have := hw.2; rw [hk] at this; simp_all
        · exact weak l (h4 l e)
      · refine .inr ⟨L, ?_⟩
        simp only [step, hc, Bool.false_eq_true, if_false, loopStep]
        rcases h3 with hu | hu | hu | hu | hu <;> rw [hu]
        · exact ⟨_, _, rfl⟩
        · exact ⟨_, _, rfl⟩
        · exact ⟨_, _, rfl⟩
        · rw [h5]; exact ⟨_, _, rfl⟩
        · have : (s.tk K).full = true := by
            cases hf : (s.tk K).full
            · exact absurd ⟨hu, hf⟩ hw
            · rfl
          simp [this]
  · rw [hc] at hx; cases hx

/-- Caller 0 starts the task, its handler runs twice, caller 1 stops it while a tick is in the channel, the handler runs a
third time and the task comes to rest; then caller 0 starts it again and the handler runs a fourth time. -/
example : ∃ h s, DiscRun usual h s ∧ panics h = 0 ∧ starts h = 2 ∧ stops h = 1 ∧ begins h = 4 := by
  have r1 := DiscRun.step (c := usual) DiscRun.init (a := .callStart 0)
    ⟨fun _ => rfl, .inr ⟨rfl, fun _ => .inl rfl⟩⟩ rfl
  have r2 := discRun_exec (as := [.client 0, .client 0, .client 0, .client 0, .client 0, .loop 0 false false,
    .loop 0 false false, .loop 0 false false, .loop 0 false false, .loop 0 false false, .fire 0, .loop 0 false false,
    .loop 0 false false, .fire 0]) r1 (by simp [Allowed]) rfl
  have r3 := DiscRun.step r2 (a := .callStop 1) (s' := _) (evs := _)
    ⟨by rintro (_ | _ | q) <;> rfl, fun _ => ⟨rfl, by rintro (_ | _ | l) <;> nofun⟩⟩ rfl
  have r4 := discRun_exec (as := [.client 1, .client 1, .client 1, .loop 0 false false,
    .loop 0 false false, .loop 0 false false, .loop 0 false false, .loop 0 false false, .loop 0 false false,
    .loop 0 false false, .loop 0 false false]) r3
    (by simp [Allowed]) rfl
  have r5 := DiscRun.step r4 (a := .callStart 0) (s' := _) (evs := _)
    ⟨by rintro (_ | _ | q) <;> rfl, .inr ⟨rfl, by rintro (_ | _ | l) <;> first | exact .inl rfl | exact .inr ⟨0, rfl, rfl⟩⟩⟩ rfl
  have r6 := discRun_exec (as := [.client 0, .client 0, .client 0, .client 0, .client 0, .loop 1 false false,
    .loop 1 false false]) r5 (by simp [Allowed]) rfl
  exact ⟨_, _, r6, rfl, rfl, rfl, rfl⟩

/-- A stopped task that is not at rest yet: its handler is to be called once more. -/
example : ∃ h s, DiscRun usual h s ∧ panics h = 0 ∧ s.crashed = false ∧ s.tstate = .stop ∧ ¬ AtRest s := by
  have r1 := DiscRun.step (c := usual) DiscRun.init (a := .callStart 0)
    ⟨fun _ => rfl, .inr ⟨rfl, fun _ => .inl rfl⟩⟩ rfl
  have r2 := discRun_exec (as := [.client 0, .client 0, .client 0, .client 0, .client 0, .loop 0 false false])
    r1 (by simp [Allowed]) rfl
  have r3 := DiscRun.step r2 (a := .callStop 1) (s' := _) (evs := _)
    ⟨by rintro (_ | _ | q) <;> rfl, fun _ => ⟨rfl, by rintro (_ | _ | l) <;> nofun⟩⟩ rfl
  have r4 := discRun_exec (as := [.client 1, .client 1, .client 1]) r3 (by simp [Allowed]) rfl
  exact ⟨_, _, r4, rfl, rfl, rfl, fun h => by rcases h.2 0 with h | ⟨_, h, _⟩ <;> cases h⟩

end Braid.TickTask
