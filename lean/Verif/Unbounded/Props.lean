import Verif.Unbounded.Inv

/-
Properties C05-C06: the unbounded buffer of lib/unbounded.
-/
namespace Braid.Unbounded
variable {T : Type}

/-- **C05** In every execution the received values are, in order, a prefix of the values put, in the
order in which `Put` acquired the lock: none is duplicated, invented or overtaken. -/
theorem C05_fifo {h : List (Ev T)} {s : St T} (hr : (sys T).Run h s) : recvs h <+: puts h :=
  ⟨_, (run_inv hr).acc⟩

/-- **C05** None is lost: when no `Put` or `Load` is in progress, the values put are exactly those
received, followed by the one in the channel, followed by the backlog. -/
theorem C05_no_loss {h : List (Ev T)} {s : St T} (hr : (sys T).Run h s) (hq : NoCall s) :
    puts h = recvs h ++ s.ch.toList ++ s.backlog := by
  have I := run_inv hr
  have hl := noCall_lock I hq
  have := I.acc
  simp only [holderPc, hl, held] at this
  rw [← this, List.append_assoc]

/-- **C06** A buffered value is always receivable: when no `Put` or `Load` is in progress and no
reader sits between its receive and its `Load`, a non-empty backlog implies that the channel is not
empty. -/
theorem C06_no_stall {h : List (Ev T)} {s : St T} (hr : (sys T).Run h s) (hq : NoCall s)
    (hg : ReadersLoaded s) (hb : s.backlog ≠ []) : s.ch ≠ none := by
  have I := run_inv hr
  have hl := noCall_lock I hq
  intro hc
  rcases I.wake hc (Or.inl hb) with ⟨g, h1⟩ | h1 | h1
  · exact hg g h1
  · simp [holderPc, hl] at h1
  · simp [holderPc, hl] at h1

/-- **C06** Observable form: at such a moment, if fewer values were received than put, a receive by
any reader succeeds and returns the next value. -/
theorem C06_receivable {h : List (Ev T)} {s : St T} (hr : (sys T).Run h s) (hq : NoCall s)
    (hg : ReadersLoaded s) (hlt : (recvs h).length < (puts h).length) (g : Nat) :
    ∃ t s', (sys T).step s (.recv g) = some (s', [.recv t]) ∧
      recvs h ++ [t] <+: puts h := by
  have hacc := C05_no_loss hr hq
  cases hc : s.ch with
  | none =>
    exfalso
    have hb : s.backlog = [] := by
      by_cases hb : s.backlog = []
      · exact hb
      · exact absurd hc (C06_no_stall hr hq hg hb)
    rw [hacc, hc, hb] at hlt
    simp at hlt
  | some t =>
    refine ⟨t, { s with ch := none, pc := upd s.pc g .got }, ?_, ?_⟩
    · have : (s.pc g).outside = true := by rcases hq g with h1 | h1 <;> simp [h1, Pc.outside]
      simp [sys, step, this, hc]
    · rw [hacc, hc]; simp

/-- **C06** A reader that calls `Load` after each receive gets every value that is buffered, in
order, without blocking (`n` is the number of buffered values). -/
theorem C06_reader_drains {h : List (Ev T)} {s : St T} (hr : (sys T).Run h s) (hq : NoCall s)
    (hg : ReadersLoaded s) (g : Nat) :
    ∃ s', (sys T).exec s (drainActs T g ((puts h).length - (recvs h).length)) =
      some (s', ((puts h).drop (recvs h).length).map Ev.recv) := by
  have hacc := C05_no_loss hr hq
  have hl := noCall_lock (run_inv hr) hq
  have hp : s.pc g = .idle := by
    rcases hq g with h1 | h1
    · exact h1
    · exact absurd h1 (hg g)
  have hns := C06_no_stall hr hq hg
  have key : ∀ (bs : List T) (s : St T) (t : T), s.pc g = .idle → s.lock = none → s.ch = some t →
      s.backlog = bs → ∃ s', (sys T).exec s (drainActs T g (bs.length + 1)) =
        some (s', (t :: bs).map Ev.recv) := by
    intro bs
    induction bs with
    | nil =>
      intro s t hp hl hc hb
      refine ⟨⟨none, [], none, upd (upd (upd (upd s.pc g .got) g .loadCheck) g .unlock) g .idle⟩, ?_⟩
      simp [drainActs, Lts.exec, sys, step, stepNext, hp, hl, hc, hb, Pc.outside]
    | cons b bs ih =>
      intro s t hp hl hc hb
      obtain ⟨s1, e1, h1, h2, h3, h4⟩ := drain_one hp hl hc hb
      obtain ⟨s2, e2⟩ := ih s1 b h1 h2 h3 h4
      exact ⟨s2, by simpa [drainActs] using Lts.exec_append e1 e2⟩
  rw [hacc]
  cases hc : s.ch with
  | none =>
    have hb : s.backlog = [] := by
      by_cases hb : s.backlog = []
      · exact hb
      · exact absurd hc (hns hb)
    exact ⟨s, by simp [hb, drainActs, Lts.exec]⟩
  | some t =>
    obtain ⟨s', e⟩ := key s.backlog s t hp hl hc rfl
    refine ⟨s', ?_⟩
    have : (recvs h ++ (some t).toList ++ s.backlog).length - (recvs h).length =
        s.backlog.length + 1 := by simp
    rw [this, e]
    simp

/-- Three values put, one received and loaded: the hypotheses of C05 and C06 hold with a backlog. -/
example : ∃ s : St Nat, (sys Nat).Run [.put 1, .put 2, .put 3, .recv 1] s ∧ NoCall s ∧
    ReadersLoaded s ∧ s.backlog = [3] ∧ s.ch = some 2 := by
  refine ⟨_, Lts.run_of_exec (M := sys Nat) (as := [.put 0 1, .next 0, .next 0, .next 0,
    .put 0 2, .next 0, .next 0, .next 0, .next 0, .put 4 3, .next 4, .next 4, .next 4,
    .recv 1, .load 1, .next 1, .next 1, .next 1, .next 1]) rfl, ?_, ?_, rfl, rfl⟩
  · intro g; simp only [upd_apply, init, sys]
    by_cases h1 : g = 1 <;> by_cases h0 : g = 0 <;> by_cases h4 : g = 4 <;> simp [h1, h0, h4]
  · intro g; simp only [upd_apply, init, sys]
    by_cases h1 : g = 1 <;> by_cases h0 : g = 0 <;> by_cases h4 : g = 4 <;> simp [h1, h0, h4]

end Braid.Unbounded
