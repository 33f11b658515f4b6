import Verif.Timer.Props

/-
Lemmas for C117: the goroutines of timers.
-/
namespace Braid.Timer
open Spec

/-- The goroutine of timer `t` exists. -/
def Alive (s : State) (t : Nat) : Prop := (s.tm t).g ≠ .off ∧ (s.tm t).g ≠ .ended

/-- The timers that were made, in order. -/
def mades : List Ev → List Nat :=
  List.filterMap fun
    | .made t _ _ _ => some t
    | _ => none

theorem mades_append (h e : List Ev) : mades (h ++ e) = mades h ++ mades e := List.filterMap_append ..

theorem mades_made (t : Nat) (d i a : Int) : mades [.made t d i a] = [t] := rfl

/-- Timers are numbered as they are made, and the goroutine of each has started. -/
structure InvL (h : List Ev) (s : State) : Prop where
  made : mades h = List.range s.n
  on : ∀ t, t < s.n → (s.tm t).g ≠ .off
  usr : ∀ u t, s.usr u = .stop t ∨ s.usr u = .stop2 t ∨ s.usr u = .stop3 t ∨ (∃ d, s.usr u = .reset t d) ∨ s.usr u = .reset2 t ∨
    s.usr u = .reset3 t → t < s.n

theorem invL_step {h : List Ev} {s s' : State} {a : Act} {evs : List Ev} (hi : InvL h s)
    (hs : step s a = some (s', evs)) : InvL (h ++ evs) s' := by
  obtain ⟨i1, i2, i3⟩ := hi
  refine ⟨?_, ?_, ?_⟩
  · rw [mades_append, i1]
    cases a <;> t_cases hs <;> first
      | (simp [mades]; done)
      | (simp only [mades_made, List.range_succ])
  · clear i1 i3
    cases a <;> t_cases hs <;> grind [upd_apply]
  · clear i1 i2
    cases a <;> t_cases hs <;> grind [upd_apply]

theorem invL_run {h : List Ev} {s : State} (hr : sys.Run h s) : InvL h s :=
  hr.invariant (P := InvL) (by constructor <;> simp [sys, init, mades]) fun _ _ _ _ _ _ hi hs => invL_step hi hs

/-! ### A goroutine that waits at a stopped ticker -/

/-- Timer `t` has been stopped and nobody is about to do anything with it. -/
structure Parked (t : Nat) (x : T) (s : State) : Prop where
  tm : s.tm t = x
  lt : t < s.n
  sd : s.shutdown = false
  usr : ∀ u, s.usr u ≠ .stop2 t ∧ s.usr u ≠ .stop3 t ∧ (∀ d, s.usr u ≠ .reset t d) ∧ s.usr u ≠ .reset2 t ∧ s.usr u ≠ .reset3 t

theorem parked_step {t : Nat} {x : T} {k : Tick} (hx : x.active = false ∧ x.g = .sel ∧ x.ticker = some k ∧ k.running = false ∧ k.chan = false)
    {s s' : State} {a : Act} {evs : List Ev} (hi : Parked t x s) (hs : step s a = some (s', evs))
    (h1 : .shutdown ∉ evs) (h2 : ∀ u d, .resetCall u t d ∉ evs) :
    Parked t x s' ∧ a ≠ .g t true ∧ a ≠ .g t false ∧ a ≠ .fire t := by
  obtain ⟨i1, i2, i3, i4⟩ := hi
  obtain ⟨x1, x2, x3, x4, x5⟩ := hx
  cases a <;> t_cases hs <;> refine ⟨⟨?_, ?_, ?_, ?_⟩, ?_⟩ <;> grind [upd_apply]

theorem parked_exec {t : Nat} {x : T} {k : Tick} (hx : x.active = false ∧ x.g = .sel ∧ x.ticker = some k ∧ k.running = false ∧ k.chan = false)
    {as : List Act} : ∀ {s s' : State} {evs : List Ev}, Parked t x s → sys.exec s as = some (s', evs) → .shutdown ∉ evs →
    (∀ u d, .resetCall u t d ∉ evs) → Parked t x s' ∧ .g t true ∉ as ∧ .g t false ∉ as ∧ .fire t ∉ as := by
  induction as with
  | nil =>
    intro s s' evs hp he _ _
    simp only [Lts.exec] at he
    cases he
    exact ⟨hp, by simp, by simp, by simp⟩
  | cons a as ih =>
    intro s s' evs hp he h1 h2
    simp only [Lts.exec] at he
    split at he
    · cases he
    · rename_i s1 e1 hs
      split at he
      · cases he
      · rename_i s2 e2 he2
        cases he
        simp only [List.mem_append, not_or] at h1 h2
        obtain ⟨hp1, n1, n2, n3⟩ := parked_step hx hp hs h1.1 (fun u d => (h2 u d).1)
        obtain ⟨hp2, m1, m2, m3⟩ := ih hp1 he2 h1.2 (fun u d => (h2 u d).2)
        refine ⟨hp2, ?_, ?_, ?_⟩ <;> simp only [List.mem_cons, not_or] <;> refine ⟨?_, by assumption⟩
        · exact fun e => n1 e.symm
        · exact fun e => n2 e.symm
        · exact fun e => n3 e.symm

/-! ### Many timers, made and cancelled -/

/-- A timer with an interval of 1 ms that was made at time 0 and cancelled. -/
def cancelled : T := ⟨1000000, false, some ⟨false, 1000000, 1000000, false⟩, .sel, 1000000⟩

/-- After `n` timers were made and cancelled. -/
def leaked (n : Nat) : State := { init with n := n, tm := fun t => if t < n then cancelled else init.tm t }

/-- Makes timer `t` and cancels it. -/
def cycle (t : Nat) : List Act := [.onTimer 0 1, .g t false, .stop 0 t, .usr 0, .usr 0, .usr 0]

theorem leaked_succ (n : Nat) : sys.exec (leaked n) (cycle n) =
    some (leaked (n + 1), [.made n 0 1 0, .stopCall 0 n, .stopRet 0 n true]) := by
  have e1 : dur 1 = 1000000 := by decide
  have e0 : dur 0 = 0 := by decide
  have hex : ∃ s, sys.exec (leaked n) (cycle n) = some (s, [.made n 0 1 0, .stopCall 0 n, .stopRet 0 n true]) ∧
      s = leaked (n + 1) := by
    refine ⟨_, (by simp [Lts.exec, sys, step, stepG, stepU, cycle, leaked, init, setT, setU, e1, e0, upd_apply]; rfl), ?_⟩
    simp only [leaked, init, State.mk.injEq, true_and, and_true]
    refine ⟨?_, ?_⟩
    · funext t
      by_cases h : t = n
      · subst h; simp [upd_apply, cancelled]
      · have : (t < n + 1) ↔ (t < n) := by omega
        simp [upd_apply, h, this]
    · funext u
      simp only [upd_apply]
      split <;> rfl
  obtain ⟨s, h1, rfl⟩ := hex
  exact h1

/-- The events of `n` cycles. -/
def cycles : Nat → List Ev
  | 0 => []
  | n + 1 => cycles n ++ [.made n 0 1 0, .stopCall 0 n, .stopRet 0 n true]

theorem leaked_run (n : Nat) : sys.Run (cycles n) (leaked n) := by
  induction n with
  | zero =>
    have : leaked 0 = sys.init := by simp [leaked, sys, init]
    rw [this]
    exact .init
  | succ n ih => exact ih.exec (leaked_succ n)

theorem cycles_mem (n t : Nat) (ht : t < n) : .stopRet 0 t true ∈ cycles n := by
  induction n with
  | zero => omega
  | succ n ih =>
    by_cases h : t = n
    · subst h; simp [cycles]
    · simp [cycles, ih (by omega)]

theorem cycles_shutdown (n : Nat) : .shutdown ∉ cycles n := by
  induction n with
  | zero => simp [cycles]
  | succ n ih => simp [cycles, ih]

theorem leaked_parked (n t : Nat) (ht : t < n) : Parked t cancelled (leaked n) :=
  ⟨by simp [leaked, ht], ht, rfl, fun u => by simp [leaked, init]⟩

/-! ### After the shutdown -/

theorem room_inv {h : List Ev} {s : State} (hr : sys.Run h s) : s.chan.length ≤ 1024 :=
  hr.invariant (P := fun _ s => s.chan.length ≤ 1024) (by simp [sys, init]) (by
    intro h s a s' evs _ hi hs
    simp only [sys] at hs
    cases a <;> t_cases hs <;> first
      | assumption
      | (simp only [List.length_append, List.length_cons, List.length_nil]; omega)
      | (rename_i hc; simp only [hc, List.length_cons] at hi; omega)
      | grind)

theorem pos_run {h : List Ev} {s : State} (hr : sys.Run h s) (hi : ∀ t d i a, .made t d i a ∈ h → 0 < i ∧ i ≤ maxMs) :
    ∀ t, t < s.n → 0 < (s.tm t).interval :=
  hr.invariant (P := fun h s => (∀ t d i a, .made t d i a ∈ h → 0 < i ∧ i ≤ maxMs) → ∀ t, t < s.n → 0 < (s.tm t).interval)
    (by simp [sys, init]) (by
      intro h s a s' evs _ ih hs hm t ht
      have i1 := ih (fun t d i a hx => hm t d i a (by simp [hx]))
      have i2 : ∀ t d i a, evs = [.made t d i a] → 0 < dur i := by
        intro t d i a he
        have := hm t d i a (by simp [he])
        rw [dur_eq (by omega) this.2]
        omega
      clear ih hm
      simp only [sys] at hs
      cases a <;> t_cases hs <;> grind [upd_apply]) hi

/-- Steps that time, the goroutine of `t` and the loop can take, which need no caller and no other timer. -/
def Own (t : Nat) : Act → Prop
  | .pass | .select | .loop | .ended => True
  | .g t' _ => t' = t
  | _ => False

/-- The goroutine of `t` can end. -/
def CanEnd (s : State) (t : Nat) : Prop :=
  ∃ as s' evs, sys.exec s as = some (s', evs) ∧ (∀ a ∈ as, Own t a) ∧ (s'.tm t).g = .ended

theorem CanEnd.of_exec {s s1 : State} {t : Nat} {as : List Act} {evs : List Ev} (he : sys.exec s as = some (s1, evs))
    (ho : ∀ a ∈ as, Own t a) (hc : CanEnd s1 t) : CanEnd s t := by
  obtain ⟨as2, s2, evs2, he2, ho2, hg⟩ := hc
  refine ⟨as ++ as2, s2, evs ++ evs2, Lts.exec_append he he2, ?_, hg⟩
  intro a ha
  rcases List.mem_append.1 ha with h | h
  · exact ho a h
  · exact ho2 a h

theorem canEnd_room {s : State} {t : Nat} (hc : s.crashed = false) (hl : s.chan.length ≤ 1024)
    (hk : ∀ s1 : State, s1.tm = s.tm → s1.crashed = false → s1.shutdown = s.shutdown → s1.now = s.now → s1.chan.length < 1024 →
      CanEnd s1 t) : CanEnd s t := by
  by_cases h : s.chan.length < 1024
  · exact hk s rfl hc rfl rfl h
  · obtain ⟨t0, r, hr⟩ : ∃ t0 r, s.chan = t0 :: r := by
      cases hch : s.chan with
      | nil => simp [hch] at h
      | cons t0 r => exact ⟨t0, r, rfl⟩
    have hlen : r.length < 1024 := by rw [hr] at hl; simp at hl; omega
    have sel : ∀ s0 : State, s0.crashed = false → s0.loop = .sel → s0.chan = t0 :: r → s0.tm = s.tm → s0.shutdown = s.shutdown →
        s0.now = s.now → CanEnd s0 t := by
      intro s0 c0 l0 ch0 t0' sd0 n0
      refine .of_exec (as := [.select]) (s1 := { s0 with chan := r, loop := .tick t0 }) (evs := [])
        (by simp [Lts.exec, sys, step, c0, l0, ch0]) (by simp [Own]) (hk _ t0' c0 sd0 n0 hlen)
    cases hl0 : s.loop with
    | sel => exact sel s hc hl0 hr rfl rfl rfl
    | busy =>
      exact .of_exec (as := [.ended]) (s1 := { s with loop := .sel }) (evs := []) (by simp [Lts.exec, sys, step, hc, hl0])
        (by simp [Own]) (sel _ hc rfl hr rfl rfl rfl)
    | run t1 =>
      exact .of_exec (as := [.ended]) (s1 := { s with loop := .sel }) (evs := [.cbEnd t1]) (by simp [Lts.exec, sys, step, hc, hl0])
        (by simp [Own]) (sel _ hc rfl hr rfl rfl rfl)
    | tick t1 =>
      cases hcl : s.closed with
      | true =>
        exact .of_exec (as := [.loop]) (s1 := { s with loop := .sel }) (evs := []) (by simp [Lts.exec, sys, step, hc, hl0, hcl])
          (by simp [Own]) (sel _ hc rfl hr rfl rfl rfl)
      | false =>
        exact .of_exec (as := [.loop, .ended]) (s1 := { s with loop := .sel }) (evs := [.cbStart t1, .cbEnd t1])
          (by simp [Lts.exec, sys, step, hc, hl0, hcl])
          (by simp [Own]) (sel _ hc rfl hr rfl rfl rfl)

theorem canEnd_sel {s : State} {t : Nat} (hc : s.crashed = false) (hs : s.shutdown = true) (hg : (s.tm t).g = .sel) : CanEnd s t :=
  ⟨[.g t true], _, _, (by simp [Lts.exec, sys, step, stepG, hc, hs, hg]; exact ⟨rfl, rfl⟩), by simp [Own], by simp [setT]⟩

theorem canEnd_mk {s : State} {t : Nat} (hc : s.crashed = false) (hs : s.shutdown = true) (hi : 0 < (s.tm t).interval)
    (hg : (s.tm t).g = .mk) : CanEnd s t := by
  have hi' : ¬ (s.tm t).interval ≤ 0 := by omega
  refine .of_exec (as := [.g t false]) (by simp [Lts.exec, sys, step, stepG, hc, hg, hi']; exact ⟨rfl, rfl⟩) (by simp [Own])
    (canEnd_sel (by exact hc) (by exact hs) (by simp [setT]))

theorem canEnd_first {s : State} {t : Nat} (hc : s.crashed = false) (hs : s.shutdown = true) (hi : 0 < (s.tm t).interval)
    (hl : s.chan.length ≤ 1024) (hg : (s.tm t).g = .first) : CanEnd s t := by
  refine canEnd_room hc hl fun s1 h1 h2 h3 h4 h5 => ?_
  rw [← h1] at hg hi
  refine .of_exec (as := [.g t false]) (by simp [Lts.exec, sys, step, stepG, h2, hg, h5]; exact ⟨rfl, rfl⟩) (by simp [Own])
    (canEnd_mk (by exact h2) (by simp [setT, h3, hs]) (by simpa [setT] using hi) (by simp [setT]))

theorem canEnd {s : State} {t : Nat} (hc : s.crashed = false) (hs : s.shutdown = true) (hi : 0 < (s.tm t).interval)
    (hl : s.chan.length ≤ 1024) (hon : (s.tm t).g ≠ .off) : CanEnd s t := by
  cases hg : (s.tm t).g with
  | off => exact absurd hg hon
  | ended => exact ⟨[], s, [], rfl, by simp, hg⟩
  | sel => exact canEnd_sel hc hs hg
  | mk => exact canEnd_mk hc hs hi hg
  | first => exact canEnd_first hc hs hi hl hg
  | send =>
    refine canEnd_room hc hl fun s1 h1 h2 h3 h4 h5 => ?_
    rw [← h1] at hg
    refine .of_exec (as := [.g t false]) (by simp [Lts.exec, sys, step, stepG, h2, hg, h5]; exact ⟨rfl, rfl⟩) (by simp [Own])
      (canEnd_sel (by exact h2) (by simp [setT, h3, hs]) (by simp [setT]))
  | due a =>
    have hp : ∀ n : Nat, sys.exec s (List.replicate n .pass) = some ({ s with now := s.now + n }, []) := by
      intro n
      induction n with
      | zero => simp [Lts.exec]
      | succ n ih =>
        rw [List.replicate_succ']
        exact Lts.exec_append (e2 := []) ih (by simp [Lts.exec, sys, step, hc, Int.add_assoc])
    refine .of_exec (hp (a - s.now).toNat) (fun x hx => by rw [List.eq_of_mem_replicate hx]; trivial) ?_
    have ha : a ≤ s.now + ((a - s.now).toNat : Int) := by omega
    refine .of_exec (as := [.g t false])
      (s1 := setT { s with now := s.now + ((a - s.now).toNat : Int) } t { s.tm t with g := .first }) (evs := [])
      (by simp only [Lts.exec, sys, step, stepG, hc, hg, if_pos ha]; rfl) (by simp [Own])
      (canEnd_first (by exact hc) (by exact hs) (by simpa [setT] using hi) hl (by simp [setT]))

/-! ### A goroutine that cannot leave -/

/-- The channel of ticks is full, and the goroutine of `t` is about to send. -/
def Stuck (t : Nat) (s : State) : Prop := (s.tm t).g = .send ∧ 1024 ≤ s.chan.length ∧ t < s.n

theorem stuck_step {t : Nat} {s s' : State} {a : Act} {evs : List Ev} (hi : Stuck t s) (hs : step s a = some (s', evs))
    (ha : a ≠ .select) : Stuck t s' := by
  obtain ⟨h1, h2, h3⟩ := hi
  refine ⟨?_, ?_, ?_⟩ <;> cases a <;> t_cases hs <;> grind [upd_apply]

theorem stuck_exec {t : Nat} {as : List Act} : ∀ {s s' : State} {evs : List Ev}, Stuck t s → sys.exec s as = some (s', evs) →
    .select ∉ as → Stuck t s' := by
  induction as with
  | nil =>
    intro s s' evs hp he _
    simp only [Lts.exec] at he
    cases he
    exact hp
  | cons a as ih =>
    intro s s' evs hp he hn
    simp only [Lts.exec] at he
    split at he
    · cases he
    · rename_i s1 e1 hs
      split at he
      · cases he
      · rename_i s2 e2 he2
        cases he
        simp only [List.mem_cons, not_or] at hn
        exact ih (stuck_step hp hs fun e => hn.1 e.symm) he2 hn.2

/-- A timer with interval `I` whose ticks nobody receives, after `k` of them. -/
def filled (I : Int) (k : Nat) : State := { init with
  n := 1
  now := I * k
  chan := List.replicate k 0
  tm := fun t => if t = 0 then ⟨I, true, some ⟨true, I, I * k + I, false⟩, .sel, I⟩ else init.tm t }

theorem filled_run {I : Int} (hI : dur 1 = I) (h0 : 0 < I) (k : Nat) (hk : k ≤ 1024) :
    ∃ h, sys.Run h (filled I k) ∧ .shutdown ∉ h := by
  induction k with
  | zero =>
    have key : ∃ s, sys.exec sys.init [.onTimer 0 1, .g 0 false] = some (s, [.made 0 0 1 0]) ∧ s = filled I 0 := by
      have e0 : dur 0 = 0 := by decide
      have h0' : ¬ I ≤ 0 := by omega
      refine ⟨_, (by simp [Lts.exec, sys, step, stepG, init, setT, hI, e0, h0']; rfl), ?_⟩
      simp only [filled, init, State.mk.injEq, true_and, and_true]
      refine ⟨by simp, ?_, by simp⟩
      funext t
      simp only [upd_apply]
      split <;> simp_all
    obtain ⟨s, h1, rfl⟩ := key
    exact ⟨_, Lts.run_of_exec h1, by simp⟩
  | succ k ih =>
    obtain ⟨h, hr, hn⟩ := ih (by omega)
    have h1 : sys.Run h { filled I k with now := I * k + I } := by
      have := pass_run hr (by rfl) I.toNat
      have e : (filled I k).now + (I.toNat : Int) = I * k + I := by simp only [filled]; omega
      rwa [e] at this
    have key : ∃ s, sys.exec { filled I k with now := I * k + I } [.fire 0, .g 0 false, .g 0 false] =
        some (s, [.queued 0 (I * k + I)]) ∧ s = filled I (k + 1) := by
      have hk' : k < 1024 := by omega
      refine ⟨_, (by simp [Lts.exec, sys, step, stepG, filled, init, setT, hk']; rfl), ?_⟩
      simp only [filled, init, State.mk.injEq, true_and, and_true]
      refine ⟨by simp [Int.mul_add], ?_, by simp [List.replicate_succ']⟩
      funext t
      simp only [upd_apply]
      by_cases h : t = 0
      · subst h; simp [Int.mul_add]
      · simp [h]
    obtain ⟨s, h2, rfl⟩ := key
    exact ⟨_, h1.exec h2, by simp [hn]⟩

/-- The channel is full, the goroutine of the timer has one more tick, and the actor is shut down. -/
theorem stuck_run : ∃ h s, sys.Run h s ∧ .shutdown ∈ h ∧ Stuck 0 s ∧ s.crashed = false := by
  obtain ⟨I, hI⟩ : ∃ I, dur 1 = I := ⟨_, rfl⟩
  have h0 : 0 < I := by rw [← hI]; decide
  obtain ⟨k, hk⟩ : ∃ k, k = 1024 := ⟨_, rfl⟩
  obtain ⟨h, hr, -⟩ := filled_run hI h0 k (by omega)
  have h1 : sys.Run h { filled I k with now := I * k + I } := by
    have := pass_run hr (by rfl) I.toNat
    have e : (filled I k).now + (I.toNat : Int) = I * k + I := by simp only [filled]; omega
    rwa [e] at this
  have key : ∃ s, sys.exec { filled I k with now := I * k + I } [.fire 0, .g 0 false, .shutdown] =
      some (s, [.shutdown]) ∧ (Stuck 0 s ∧ s.crashed = false) := by
    refine ⟨_, (by simp [Lts.exec, sys, step, stepG, filled, init, setT]; rfl), ?_⟩
    have hk' : 1024 ≤ k := by omega
    simpa [Stuck, upd_apply] using hk'
  obtain ⟨s, h2, h3⟩ := key
  exact ⟨_, s, h1.exec h2, by simp, h3⟩

end Braid.Timer
