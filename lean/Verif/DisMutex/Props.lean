import Verif.DisMutex.Tries

/-
Properties C42 (the lock excludes within its lease), C43 (Unlock releases only one's own lock) and C101 (Lock fails only
if the lock is taken).
-/
namespace Braid.DisMutex
open Spec

/-- C42: at any instant at most one holder of a key has a lease that has not expired. -/
theorem C42_exclusion {h : List Ev} {s : State} (hr : sys.Run h s) {c1 c2 : Nat} {key v1 v2 : String}
    (h1 : Holds h s.now c1 key v1) (h2 : Holds h s.now c2 key v2) : c1 = c2 ∧ v1 = v2 := by
  have hi := inv_run hr
  obtain ⟨t1, n1, hl1, ht1, hu1⟩ := h1
  obtain ⟨t2, n2, hl2, ht2, hu2⟩ := h2
  have e1 := hi.heldStore _ _ _ _ _ hl1 hu1 ht1
  have e2 := hi.heldStore _ _ _ _ _ hl2 hu2 ht2
  rw [e1] at e2
  simp only [Option.some.injEq, Prod.mk.injEq] at e2
  have o1 := hi.heldOwner _ _ _ _ _ hl1
  have o2 := hi.heldOwner _ _ _ _ _ hl2
  rw [e2.1, o2] at o1
  exact ⟨by simpa using o1.symm, e2.1⟩

/-- C42: the lease starts inside the call of `Lock`: between its call and its return. -/
theorem C42_lease_in_call {h : List Ev} {s : State} (hr : sys.Run h s) {c t n : Nat}
    {key v : String} (hl : .locked c key v t n ∈ h) :
    t ≤ n ∧ n ≤ s.now ∧ ∃ t0, t0 ≤ t ∧ .lockCall c key v t0 ∈ h :=
  (inv_run hr).heldTime _ _ _ _ _ hl

/-- C42: a lock that is free can be taken: a goroutine whose first attempt gets through obtains it. -/
theorem C42_free_lock_taken (s : State) (c : Nat) (key value : String) (hpc : s.pc c = .idle)
    (hk : key ≠ "") (hv : value ≠ "") (hnew : s.owner value = none)
    (hfree : live s.store s.now key = none) :
    ∃ s', sys.exec s [.lock c key value, .attempt c .ok, .ret c] =
      some (s', [.lockCall c key value s.now, .tried c key value s.now .got, .locked c key value s.now s.now]) ∧
      live s'.store s'.now key = some value := by
  simp [Lts.exec, sys, step, hpc, hk, hv, hnew, hfree, tries]
  simp [live, expiry]

/-- Two goroutines: the first lets its lease expire, then the second gets the lock. -/
theorem ex_run : ∃ s, sys.Run [.lockCall 0 "k" "a" 0, .tried 0 "k" "a" 0 .got, .locked 0 "k" "a" 0 0,
    .lockCall 1 "k" "b" 5, .tried 1 "k" "b" 5 .taken, .tried 1 "k" "b" 10005 .got, .locked 1 "k" "b" 10005 10005] s ∧ s.now = 10005 :=
  ⟨_, Lts.run_of_exec (M := sys) (as := [.lock 0 "k" "a", .attempt 0 .ok, .ret 0, .tick 5,
    .lock 1 "k" "b", .attempt 1 .ok, .tick 10000, .attempt 1 .ok, .ret 1]) rfl, rfl⟩

/-- In this run goroutine 1 holds the key, and goroutine 0 (whose lease is over) does not. -/
example : ∃ h s, sys.Run h s ∧ Holds h s.now 1 "k" "b" ∧ ¬ Holds h s.now 0 "k" "a" := by
  obtain ⟨s, hr, hn⟩ := ex_run
  refine ⟨_, s, hr, ⟨10005, 10005, by simp, by omega, by simp⟩, ?_⟩
  rintro ⟨t, n, ht, hlt, -⟩
  simp at ht
  omega

/-- C43: what `Unlock(key, value)` does when its script runs: it returns true iff the key is held with
this value and the reply arrives; if the key is held with this value and the command reaches Redis the
key is freed; otherwise, and for all the other keys, nothing changes. -/
theorem C43_unlock_own (s s' : State) (c : Nat) (key value : String) (net : Net) (evs : List Ev)
    (hpc : s.pc c = .unlocking key value) (hs : step s (.script c net) = some (s', evs)) :
    (∃ b, evs = [.unlocked c key value b] ∧
      (b = true ↔ live s.store s.now key = some value ∧ net = .ok)) ∧
    (live s.store s.now key = some value → net ≠ .failed → live s'.store s'.now key = none) ∧
    (live s.store s.now key ≠ some value → s'.store = s.store) ∧
    (∀ k, k ≠ key → s'.store k = s.store k) ∧ s'.now = s.now := by
  simp only [step, hpc, Option.some.injEq, Prod.mk.injEq] at hs
  obtain ⟨rfl, rfl⟩ := hs
  refine ⟨⟨_, rfl, by simp⟩, ?_, ?_, ?_, rfl⟩
  · intro h1 h2
    simp only
    rw [if_pos ⟨h1, h2⟩]; simp [live]
  · intro h; simp only; rw [if_neg fun hx => h hx.1]
  · intro k hk
    simp only
    split
    · rw [upd_of_ne _ _ hk]
    · rfl

/-- C43: an empty value is refused without asking Redis. -/
theorem C43_empty_value (s : State) (c : Nat) (key : String) (hpc : s.pc c = .idle) :
    step s (.unlock c key "") = some (s, [.unlocked c key "" false]) := by
  simp [step, hpc]

/-- C43: no step of another goroutine takes a running lease away: a holder whose own lease expired
cannot release the next holder's lock. -/
theorem C43_lease_kept {h : List Ev} {s s' : State} {a : Act} {evs : List Ev} (hr : sys.Run h s)
    (hs : step s a = some (s', evs)) {c : Nat} {key v : String}
    (hh : Holds h s'.now c key v) (hu : .unlockCall c key v ∉ evs) :
    Holds (h ++ evs) s'.now c key v ∧ live s'.store s'.now key = some v := by
  obtain ⟨t, n, hl, ht, hnu⟩ := hh
  have hl' : Ev.locked c key v t n ∈ h ++ evs := List.mem_append_left _ hl
  have hnu' : Ev.unlockCall c key v ∉ h ++ evs := by simp [hnu, hu]
  refine ⟨⟨t, n, hl', ht, hnu'⟩, ?_⟩
  have hr' : sys.Run (h ++ evs) s' := hr.step hs
  exact live_of ((inv_run hr').heldStore _ _ _ _ _ hl' hnu' ht) ht

/-- The expired holder of `ex_run` calls Unlock: false, and goroutine 1 keeps the key. -/
example : ∃ s, sys.exec init [.lock 0 "k" "a", .attempt 0 .ok, .ret 0, .tick 10000, .lock 1 "k" "b",
      .attempt 1 .ok, .ret 1, .unlock 0 "k" "a", .script 0 .ok] =
    some (s, [.lockCall 0 "k" "a" 0, .tried 0 "k" "a" 0 .got, .locked 0 "k" "a" 0 0,
      .lockCall 1 "k" "b" 10000, .tried 1 "k" "b" 10000 .got, .locked 1 "k" "b" 10000 10000, .unlockCall 0 "k" "a", .unlocked 0 "k" "a" false]) ∧
    live s.store s.now "k" = some "b" := ⟨_, rfl, by decide +kernel⟩

/-- C101: a `Lock` that fails (with a key) has made four attempts, at least 700 ms apart, none of which got the lock, and
has paused after each: it returns no earlier than 2.8 seconds after the call, whatever Redis or the context do. -/
theorem C101_failed {h : List Ev} {s : State} (hr : sys.Run h s) {c n : Nat} {key v : String}
    (hf : .lockFailed c key v n ∈ h) (hk : key ≠ "") :
    ∃ t0, .lockCall c key v t0 ∈ h ∧ t0 + 2800 ≤ n ∧ (attempts v h).length = 4 ∧
      Spaced ((attempts v h).map Prod.fst) ∧ ∀ p ∈ attempts v h, t0 ≤ p.1 ∧ p.1 + 700 ≤ n ∧ p.2 ≠ .got := by
  rcases (inv2_run hr).failed c key v n hf with h0 | ⟨-, -, t0, w, hc, hg, hw⟩
  · exact absurd h0 hk
  · refine ⟨t0, hc, ?_, hg.len, hg.spaced, fun p hp => ⟨hg.start p hp, ?_, hg.none p hp⟩⟩
    · have := hg.total; omega
    · have := hg.pause p hp; omega

/-- C101: an attempt fails for another reason than an error only if there is a lock on the key. -/
theorem C101_taken {h1 h2 : List Ev} {s : State} {c t : Nat} {key v : String}
    (hr : sys.Run (h1 ++ .tried c key v t .taken :: h2) s) : Locked h1 t key := by
  obtain ⟨h0, s0, a, s1, pre, post, -, -, hr0, hs, hh, -⟩ := hr.split_at rfl
  have hi := inv2_run hr0
  change step s0 a = _ at hs
  cases a with
  | attempt c' net =>
    obtain ⟨k, v', i, w, hpc, hw, ⟨-, -, he⟩ | ⟨-, -, he, -⟩ | ⟨-, -, he, -⟩ | ⟨-, r, he, hrr, -⟩⟩ := attempt_cases hs
    · cases pre <;> simp at he
    · cases pre <;> simp at he
    · cases pre <;> simp at he
    · cases pre with
      | cons x l => simp at he
      | nil =>
        simp only [List.nil_append, List.cons.injEq, Ev.tried.injEq] at he
        obtain ⟨⟨rfl, rfl, rfl, rfl, rfl⟩, -⟩ := he
        rw [hh, List.append_nil]
        rcases hrr with ⟨-, hl⟩ | hx
        · cases hv : live s0.store s0.now key with
          | none => exact absurd hv hl
          | some u =>
            obtain ⟨e, hst, he⟩ := live_some hv
            obtain ⟨c2, t2, r2, h3, h4, h5, -, h6⟩ := hi.store _ _ _ hst
            exact ⟨c2, u, t2, r2, h3, h4, by omega, h6⟩
        · cases hx
  | tick d => simp [step] at hs
  | lock c' k' v' =>
    simp only [step] at hs
    repeat' split at hs
    all_goals (first | (cases hs; done) | (simp only [Option.some.injEq, Prod.mk.injEq] at hs; obtain ⟨-, he⟩ := hs; cases pre <;> simp at he))
  | ret c' =>
    simp only [step] at hs
    split at hs
    · simp only [Option.some.injEq, Prod.mk.injEq] at hs; obtain ⟨-, he⟩ := hs; cases pre <;> simp at he
    · cases hs
  | unlock c' k' v' =>
    simp only [step] at hs
    repeat' split at hs
    all_goals (first | (cases hs; done) | (simp only [Option.some.injEq, Prod.mk.injEq] at hs; obtain ⟨-, he⟩ := hs; cases pre <;> simp at he))
  | script c' net =>
    obtain ⟨k, v', b, -, he, -⟩ := script_cases hs
    cases pre <;> simp at he

/-- C101 (partial): if no reply of Redis to a successful attempt was lost, a `Lock` that fails found at each of its attempts
that somebody had the lock, or got an error. Missing: lost replies, see `C101_lost_refuted`. -/
theorem C101_failed_partial {h : List Ev} {s : State} (hr : sys.Run h s) {c n : Nat} {key v : String}
    (hf : .lockFailed c key v n ∈ h) (hk : key ≠ "") (hlost : ∀ c k v t, .tried c k v t .lost ∉ h) :
    (attempts v h).length = 4 ∧
    ∀ h1 h2 t r, h = h1 ++ .tried c key v t r :: h2 → r = .noReply ∨ Owned h1 t key := by
  obtain ⟨t0, -, -, hlen, -, hall⟩ := C101_failed hr hf hk
  refine ⟨hlen, fun h1 h2 t r he => ?_⟩
  subst he
  cases r with
  | got =>
    have : (t, Tried.got) ∈ attempts v (h1 ++ .tried c key v t .got :: h2) := by
      rw [attempts_append]; simp [attempts]
    exact absurd rfl (hall _ this).2.2
  | lost => exact absurd (by simp) (hlost c key v t)
  | noReply => exact .inl rfl
  | taken =>
    right
    obtain ⟨c2, v2, t2, r2, h3, h4, h5, h6⟩ := C101_taken hr
    rcases h4 with rfl | rfl
    · exact ⟨c2, v2, t2, h3, h5, h6⟩
    · exact absurd (List.mem_append_left _ h3) (hlost c2 key v2 t2)

/-- C101 is violated when a reply is lost: goroutine 0 sets the key and does not know it, its own further attempts find
the key taken, and so do all those of goroutine 1, whose commands are all answered. Both fail although nobody ever
had the lock. -/
theorem C101_lost_refuted : ∃ h s, sys.Run h s ∧ .lockFailed 0 "k" "a" 2800 ∈ h ∧ .lockFailed 1 "k" "b" 2800 ∈ h ∧
    attempts "b" h = [(0, .taken), (700, .taken), (1400, .taken), (2100, .taken)] ∧
    (∀ c v t, .tried c "k" v t .got ∉ h) ∧ (∀ h1 h2 t, h = h1 ++ h2 → ¬ Owned h1 t "k") := by
  let acts : List Act := [.lock 0 "k" "a", .lock 1 "k" "b", .attempt 0 .lost, .attempt 1 .ok, .tick 700,
    .attempt 0 .ok, .attempt 1 .ok, .tick 700, .attempt 0 .ok, .attempt 1 .ok, .tick 700, .attempt 0 .ok, .attempt 1 .ok,
    .tick 700, .attempt 0 .ok, .attempt 1 .ok]
  let hist : List Ev := [.lockCall 0 "k" "a" 0, .lockCall 1 "k" "b" 0, .tried 0 "k" "a" 0 .lost, .tried 1 "k" "b" 0 .taken,
    .tried 0 "k" "a" 700 .taken, .tried 1 "k" "b" 700 .taken, .tried 0 "k" "a" 1400 .taken, .tried 1 "k" "b" 1400 .taken,
    .tried 0 "k" "a" 2100 .taken, .tried 1 "k" "b" 2100 .taken, .lockFailed 0 "k" "a" 2800, .lockFailed 1 "k" "b" 2800]
  have hnone : ∀ c v t, .tried c "k" v t .got ∉ hist := by intro c v t; simp [hist]
  refine ⟨hist, _, Lts.run_of_exec (M := sys) (as := acts) rfl, by simp [hist], by simp [hist], by decide +kernel, hnone, ?_⟩
  rintro h1 h2 t he ⟨c, v, t', hm, -, -⟩
  exact hnone c v t' (he ▸ List.mem_append_left _ hm)

/-- The hypotheses hold: goroutine 0 has the lock, goroutine 1 tries for 2.8 seconds and fails. -/
example : ∃ h s, sys.Run h s ∧ .lockFailed 1 "k" "b" 2800 ∈ h ∧ (∀ c k v t, .tried c k v t .lost ∉ h) ∧
    .locked 0 "k" "a" 0 0 ∈ h :=
  ⟨[.lockCall 0 "k" "a" 0, .tried 0 "k" "a" 0 .got, .locked 0 "k" "a" 0 0, .lockCall 1 "k" "b" 0,
    .tried 1 "k" "b" 0 .taken, .tried 1 "k" "b" 700 .taken, .tried 1 "k" "b" 1400 .noReply, .tried 1 "k" "b" 2100 .taken,
    .lockFailed 1 "k" "b" 2800], _,
    Lts.run_of_exec (M := sys) (as := [.lock 0 "k" "a", .attempt 0 .ok, .ret 0, .lock 1 "k" "b", .attempt 1 .ok, .tick 700,
      .attempt 1 .ok, .tick 700, .attempt 1 .failed, .tick 700, .attempt 1 .ok, .tick 700, .attempt 1 .ok]) rfl,
    by simp, by simp, by simp⟩

end Braid.DisMutex
