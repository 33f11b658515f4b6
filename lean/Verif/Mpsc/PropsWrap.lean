import Verif.Mpsc.Wrap

/-
C134: the queue with its 32-bit count.
-/
namespace Braid.Mpsc
variable {V : Type}

/-- C134, the part that holds. As long as fewer than 2^31 values wait and at most 2^31 calls of `Push` run at once, the
32-bit count makes no difference: the run is one of the queue that counts with integers, state by state. So C01 to C04 and
C133 hold for it. -/
theorem C134_same_partial {h : List (Ev V)} {s : St V} (hr : (sys32 V).Run h s) (hs : Small h) : (sys V).Run h s :=
  small_run hr hs

/-- C134, the part that holds, for wake-ups: then the consumer is not left asleep with values waiting. -/
theorem C134_wakeup_partial {h : List (Ev V)} {s : St V} (hr : (sys32 V).Run h s) (hs : Small h) (hd : PushesDone h)
    (hc : s.cons = .idle) (hne : ∃ p id x, Ev.pushInv p id x ∈ h ∧ (id, x) ∉ popped h) : ∃ t, s.tok = some t :=
  C03_no_lost_wakeup (small_run hr hs) hd hc hne

/-- C134, the part that holds, for `Count`: then it is the number of values that wait, when nothing is in progress. -/
theorem C134_count_partial {h : List (Ev V)} {s : St V} (hr : (sys32 V).Run h s) (hs : Small h) (hd : PushesDone h)
    (hc : s.cons = .idle) : ∃ order rem, Explains order h ∧ (∀ p id x, Ev.pushInv p id x ∈ h → (id, x) ∈ order) ∧
      popped h ++ rem = order ∧ countNow s = rem.length := by
  obtain ⟨order, rem, h1, h2, h3, h4, _⟩ := C02_no_loss (small_run hr hs) hd hc
  exact ⟨order, rem, h1, h2, h3, h4⟩

/-- C134. What a burst does, exactly: after `n + 1` pushes and one round of the consumer, `n` values wait, nothing is in
progress, and there is a token if and only if the 32-bit number `n` is positive. -/
theorem C134_burst (x : V) (n : Nat) : ∃ h s, (sys32 V).Run h s ∧
    h = (List.range (n + 1)).flatMap (fun i => [.pushInv 0 (i + 1) x, .pushRet (i + 1)]) ++ [.popInv, .popRet (some (1, x))] ∧
    PushesDone h ∧ (∀ p, s.prods p = .idle) ∧ s.cons = .idle ∧ popped h = [(1, x)] ∧ countNow s = i32 n ∧
    (s.tok ≠ none ↔ 0 < i32 n) := by
  obtain ⟨s, h1, h2⟩ := burst_run x (n + 1)
  obtain ⟨s', h3, h4, h5, h6, h7⟩ := burst_round h2
  refine ⟨_, s', h1.exec h3, rfl, ?_, h7, h4, ?_, h5, h6⟩
  · intro p id y hm
    simp only [List.mem_append, List.mem_flatMap, burstEvs, List.mem_cons, Ev.pushInv.injEq, reduceCtorEq, List.not_mem_nil,
      or_false] at hm
    obtain ⟨i, hi, _, rfl, _⟩ := hm
    exact List.mem_append.2 (.inl (List.mem_flatMap.2 ⟨i, hi, by simp [burstEvs]⟩))
  · rw [popped_append]
    have : ∀ l : List Nat, popped (l.flatMap (burstEvs x)) = [] := by
      intro l
      induction l with
      | nil => rfl
      | cons i l ih => rw [List.flatMap_cons, popped_append, ih]; rfl
    rw [this]
    rfl

/-- C134 is false: with 2^31 values waiting the count is negative, the consumer has taken the only token and is left
asleep, and no call of `Push` is in progress that would wake it up. -/
theorem C134_wakeup_refuted (x : V) : ∃ h s, (sys32 V).Run h s ∧ PushesDone h ∧ (∀ p, s.prods p = .idle) ∧ s.cons = .idle ∧
    (∃ p id y, Ev.pushInv p id y ∈ h ∧ (id, y) ∉ popped h) ∧ s.tok = none ∧ countNow s = -2 ^ 31 := by
  obtain ⟨h, s, h1, h2, h3, h4, h5, h6, h7, h8⟩ := C134_burst x (2 ^ 31)
  refine ⟨h, s, h1, h3, h4, h5, ⟨0, 2, x, ?_, ?_⟩, ?_, ?_⟩
  · rw [h2]
    exact List.mem_append.2 (.inl (List.mem_flatMap.2 ⟨1, List.mem_range.2 (by decide), by simp⟩))
  · rw [h6]; simp
  · cases ht : s.tok with
    | none => rfl
    | some t =>
      have := h8.1 (by rw [ht]; simp)
      exact absurd this (by decide)
  · rw [h7]; decide

/-- C134. The next pushes do not wake it up either: from a state in which nothing is in progress, no token is there and
the count is negative, a call of `Push` sends none as long as the count stays negative or zero. -/
theorem C134_push_silent {s s' : St V} {p : Nat} {x : V} {evs : List (Ev V)} (hp : s.prods p = .idle) (ht : s.tok = none)
    (hlo : -2 ^ 31 ≤ s.count) (hc : s.count < 0)
    (he : (sys32 V).exec s [.push p x, .prod p, .prod p, .prod p, .prod p] = some (s', evs)) :
    s'.tok = none ∧ s'.count = s.count + 1 ∧ s'.prods p = .idle ∧ s'.cons = s.cons := by
  simp [Lts.exec, sys32, step32, step, stepProd32, stepProd, hp] at he
  obtain ⟨rfl, rfl⟩ := he
  have : i32 (s.count + 1) = s.count + 1 := i32_id (by omega) (by omega)
  simp [this, ht, signal]
  omega

/-- The hypotheses of the part that holds are met by a run with a push, and its value waits. -/
example : ∃ h s, (sys32 Nat).Run h s ∧ Small h ∧ PushesDone h ∧ s.cons = .idle ∧
    ∃ p id x, Ev.pushInv p id x ∈ h ∧ (id, x) ∉ popped h := by
  refine ⟨_, _, Lts.run_of_exec (M := sys32 Nat) (as := [.push 0 7, .prod 0, .prod 0, .prod 0, .prod 0]) rfl, ?_, ?_, rfl,
    0, 1, 7, by decide +kernel, by decide +kernel⟩
  · intro h' hp
    have h1 : (calls h').length ≤ 1 := by
      obtain ⟨t, ht⟩ := hp
      have := congrArg (fun l => (calls l).length) ht
      simp only [calls_append, List.length_append] at this
      have h2 : (calls ([Ev.pushInv 0 1 7, Ev.pushRet 1] : List (Ev Nat))).length = 1 := rfl
      change (calls h').length + (calls t).length = 1 at this
      omega
    have h2 : (waiting h').length ≤ (calls h').length := List.length_filter_le ..
    have h3 : (running h').length ≤ (calls h').length := List.length_filter_le ..
    omega
  · intro p id x hm
    change Ev.pushInv p id x ∈ [Ev.pushInv 0 1 7, Ev.pushRet 1] at hm
    simp at hm
    obtain ⟨_, rfl, _⟩ := hm
    change Ev.pushRet 1 ∈ ([Ev.pushInv 0 1 7, Ev.pushRet 1] : List (Ev Nat))
    simp

end Braid.Mpsc
