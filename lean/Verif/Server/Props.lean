import Verif.Server.Lemmas

/-
C93: calls pass the interceptors of the options in order.  C94: Close ends the server.
-/
namespace Braid.Server
open Spec

/-! ### C93 -/

/-- C93: building a server succeeds iff there is a handler; address and handler are those given last, the address is
":14222" otherwise, and the server stops gracefully iff this was wanted. -/
theorem C93_built (opts : List Opt) :
    (build opts = none ↔ lastOf selHandler none opts = none) ∧
    ∀ s, build opts = some s →
      s.parm.listen = lastOf selListen ":14222" opts ∧
      s.parm.handler = lastOf selHandler none opts ∧
      (s.parm.graceful = true ↔ .graceful ∈ opts) := by
  rw [build_eq]
  constructor
  · split <;> simp_all
  · intro s hs
    split at hs
    · cases hs
    · cases hs; simp

/-- C93: a unary call passes all interceptors in the order of the options, if they all let it pass and the handler does
not panic. -/
theorem C93_passed {opts : List Opt} {s : Server} (hs : build opts = some s) {r : Res} (hr : r ≠ .panic)
    (hp : ∀ i ∈ unaryOf opts, i.kind = .pass ∨ i.kind = .recovery) :
    unaryCall s r = Passed (unaryOf opts) r := by
  rw [unaryCall_eq hs]
  generalize unaryOf opts = is at hp
  induction is with
  | nil => rfl
  | cons i is ih =>
    have h1 := ih (fun j hj => hp j (by simp [hj]))
    rw [List.foldr_cons, h1]
    rcases hp i (by simp) with hk | hk <;> simp [call, hk, Passed, hr]

/-- C93: a unary call goes no further than the first interceptor that rejects it. -/
theorem C93_rejected {opts : List Opt} {s : Server} (hs : build opts = some s) (r : Res) {before after : List Icpt}
    {i : Icpt} (hi : unaryOf opts = before ++ i :: after) (hk : i.kind = .reject)
    (hp : ∀ j ∈ before, j.kind = .pass ∨ j.kind = .recovery) :
    unaryCall s r = Rejected before i := by
  rw [unaryCall_eq hs, hi, List.foldr_append, List.foldr_cons]
  have h0 : call i (after.foldr call ([.handler], r)) = Rejected [] i := by simp [call, hk, Rejected]
  rw [h0]
  clear hi h0
  induction before with
  | nil => rfl
  | cons j js ih =>
    have h1 := ih (fun k hk => hp k (by simp [hk]))
    rw [List.foldr_cons, h1]
    rcases hp j (by simp) with hk | hk <;> simp [call, hk, Rejected]

/-- C93: no call panics if the first interceptor is that of `grpc_recovery`. -/
theorem C93_recovered {opts : List Opt} {s : Server} (hs : build opts = some s) (r : Res) {i : Icpt} {is : List Icpt}
    (hi : unaryOf opts = i :: is) (hk : i.kind = .recovery) : (unaryCall s r).2 ≠ .panic := by
  rw [unaryCall_eq hs, hi, List.foldr_cons]
  simp only [call, hk]
  split
  · simp
  · assumption

/-- C93: the acceptor of a node recovers from every panic, listens on the port of the node and stops gracefully. -/
theorem C93_acceptor (port : String) (tracing : Bool) (h : Nat) :
    ∃ s, build (acceptorOpts port tracing h) = some s ∧ s.parm.listen = port ∧ s.parm.graceful = true ∧
      s.parm.handler = some h ∧ ∀ r, (unaryCall s r).2 = if r = .panic then .err else r := by
  refine ⟨_, rfl, rfl, rfl, rfl, ?_⟩
  intro r
  cases tracing <;> cases r <;> rfl

/-- C93, the full statement for streams. -/
def StreamsIntercepted : Prop :=
  ∀ opts s r, build opts = some s → r ≠ .panic → (∀ i ∈ streamOf opts, i.kind = .pass ∨ i.kind = .recovery) →
    streamCall s r = Passed (streamOf opts) r

/-- C93 is violated: stream interceptors are not installed. -/
theorem C93_stream_refuted : ¬ StreamsIntercepted := by
  intro hall
  have := hall [.stream ⟨5, .pass⟩, .handler (some 0)] _ .ok rfl (by decide) (by simp [streamOf])
  exact absurd this (by decide)

/-- C93: no stream passes an interceptor. -/
theorem C93_streams {opts : List Opt} {s : Server} (hs : build opts = some s) (r : Res) :
    streamCall s r = ([.handler], r) := by
  rw [build_eq] at hs
  split at hs
  · cases hs
  · cases hs; rfl

/-- A call through two interceptors and one that rejects. -/
example : ∃ s, build [.unary [⟨1, .pass⟩, ⟨2, .recovery⟩], .handler (some 0), .unary [⟨3, .pass⟩]] = some s ∧
    unaryCall s .ok = ([.enter 1, .enter 2, .enter 3, .handler, .exit 3, .exit 2, .exit 1], .ok) :=
  ⟨_, rfl, by decide⟩

example : ∃ s, build [.unary [⟨1, .pass⟩, ⟨2, .reject⟩], .handler (some 0), .unary [⟨3, .pass⟩]] = some s ∧
    unaryCall s .ok = Rejected [⟨1, .pass⟩] ⟨2, .reject⟩ :=
  ⟨_, rfl, by decide⟩

/-! ### C94 -/

/-- C94, the full statement: when `Close` has returned, no listener is open and no call is running. -/
def CloseEnds (gr : Bool) : Prop :=
  ∀ h s c, (sys gr).Run (h ++ [.closeRet c]) s → (∀ l, s.isOpen l = false) ∧ running h = 0

/-- C94 is violated: a listener that was not given to `Run` stays open. -/
theorem C94_leak_refuted (gr : Bool) : ¬ CloseEnds gr := by
  intro hall
  have hr : ∃ s, (sys gr).Run ([.initOk 0, .closeCall 0] ++ [.closeRet 0]) s ∧ s.isOpen 0 = true := by
    cases gr
    · exact ⟨_, Lts.run_of_exec (M := sys false) (as := [.init true, .close 0, .closeRet 0]) rfl, rfl⟩
    · exact ⟨_, Lts.run_of_exec (M := sys true) (as := [.init true, .close 0, .closeRet 0]) rfl, rfl⟩
  obtain ⟨s, hs, ho⟩ := hr
  have := (hall _ _ _ hs).1 0
  rw [ho] at this
  cases this

/-- C94 is violated also when the server runs: `Close` can return before the goroutine of `Run` has started, which
closes the listener only later. -/
theorem C94_race_refuted (gr : Bool) : ∃ s, (sys gr).Run [.initOk 0, .ran 0 (some 0), .closeCall 0, .closeRet 0] s ∧
    s.isOpen 0 = true := by
  cases gr
  · exact ⟨_, Lts.run_of_exec (M := sys false) (as := [.init true, .run, .close 0, .closeRet 0]) rfl, rfl⟩
  · exact ⟨_, Lts.run_of_exec (M := sys true) (as := [.init true, .run, .close 0, .closeRet 0]) rfl, rfl⟩

/-- C94 is violated without the option for a graceful stop: calls are still running when `Close` has returned. -/
theorem C94_calls_refuted : ∃ h s, (sys false).Run (h ++ [.closeRet 0]) s ∧ running h = 1 :=
  ⟨[.initOk 0, .ran 0 (some 0), .callStart, .closeCall 0], _,
    Lts.run_of_exec (M := sys false) (as := [.init true, .run, .g 0, .callStart 0, .close 0, .closeRet 0]) rfl,
    by decide⟩

/-- C94 (partial): when the goroutine of `Run` has come to rest after a `Close`, every listener that was given to `Run` is
closed; so all are, if `Run` was called for each. Missing from the full statement: that this is so when `Close` returns. -/
theorem C94_rest_partial {gr : Bool} {h : List LEv} {s : State} {c : Nat} (hr : (sys gr).Run h s)
    (hc : .closeCall c ∈ h) (hcr : s.crashed = false) (hrest : AtRest gr s) {l : Nat}
    (hl : .initOk l ∈ h → ∃ k, .ran k (some l) ∈ h) : s.isOpen l = false := by
  have hi := inv_run hr
  cases ho : s.isOpen l with
  | false => rfl
  | true =>
    obtain ⟨k, hk⟩ := hl (hi.opened l ho)
    have hst := hi.stopped ⟨c, hc⟩
    have h0 := hrest 0
    rcases (hi.ran k _ hk).2.2 with hg | ⟨l', -, hg⟩ | ⟨-, hg⟩
    · simp [step, hcr, hg, hst] at h0
    · simp [step, hcr, hg, hst] at h0
    · rw [hg l rfl] at ho; cases ho

/-- C94 (partial): a graceful `Close` returns only when no call is running. -/
theorem C94_graceful_partial {h : List LEv} {s : State} {c : Nat} (hr : (sys true).Run (h ++ [.closeRet c]) s) :
    running h = 0 := by
  obtain ⟨h0, s0, a, s1, pre, post, as, rest, hr0, hs, h1, h2, -⟩ := hr.split_at (h1 := h) (h2 := []) rfl
  have hi := (inv_run hr0).active
  obtain ⟨rfl, rfl⟩ := one_event hs
  simp only [sys] at hs
  cases a <;> s_cases hs
  rename_i h3 _
  rw [h1, List.append_nil, ← hi]
  by_cases ha : s0.active = 0
  · rw [ha]; rfl
  · exact absurd ⟨trivial, ha⟩ h3

/-- C94: once `Close` was called no call starts. -/
theorem C94_no_new_calls {gr : Bool} {h1 h2 : List LEv} {s : State} {c : Nat}
    (hr : (sys gr).Run (h1 ++ .closeCall c :: h2) s) : .callStart ∉ h2 := by
  obtain ⟨h0, s0, a, s1, pre, post, as, rest, hr0, hs, h1, rfl, he⟩ := hr.split_at rfl
  obtain ⟨rfl, rfl⟩ := one_event hs
  have hst : s1.stopped = true ∧ .callStart ∉ ([] : List LEv) := by
    simp only [sys] at hs
    cases a <;> s_cases hs
    simp
  intro hm
  rcases List.mem_append.1 hm with hm | hm
  · exact hst.2 hm
  · exact (stopped_exec hst.1 he).2 _ hm rfl

/-- C94: with one `Run`, after an `Init` that succeeded, nothing crashes. -/
theorem C94_no_crash {gr : Bool} {pre post : List Act} {s : State} {h : List LEv}
    (he : (sys gr).exec init (pre ++ .run :: post) = some (s, h)) (hi : .init true ∈ pre)
    (h1 : .run ∉ pre) (h2 : .run ∉ post) : s.crashed = false ∧ .crash ∉ h := by
  obtain ⟨s1, e1, e2, he1, he2, rfl⟩ := exec_split he
  have hp := pre_run ⟨rfl, rfl, rfl, fun _ => rfl⟩ (fun a ha => fun h => h1 (h ▸ ha)) he1
  have hc := cur_init hi he1
  simp only [Lts.exec] at he2
  split at he2
  · cases he2
  · rename_i s2 e3 hs
    split at he2
    · cases he2
    · rename_i s3 e4 h3
      cases he2
      obtain ⟨⟨p1, p2, p3, p4⟩, p5⟩ := hp
      have h4 : (s2.crashed = false ∧ ∀ k, s2.g k ≠ .start none) ∧ .crash ∉ e3 := by
        simp [sys, step, p1, p2, p3] at hs
        obtain ⟨rfl, rfl⟩ := hs
        refine ⟨⟨rfl, fun k => ?_⟩, by simp⟩
        simp only [upd_apply]
        split
        · simpa using hc
        · simp [p4]
      have h5 := post_run h4.1 (fun a ha => fun h => h2 (h ▸ ha)) h3
      refine ⟨h5.1.1, ?_⟩
      simp only [List.mem_append, not_or]
      exact ⟨fun h => p5 _ h rfl, h4.2, fun h => h5.2 _ h rfl⟩

/-- The server is used as by a node: a call runs while it is closed, and then everything has come to rest. -/
example : ∃ h s, (sys true).Run (h ++ [.closeRet 0]) s ∧ AtRest true s ∧ s.crashed = false ∧ .callStart ∈ h ∧
    .closeCall 0 ∈ h ∧ .ran 0 (some 0) ∈ h := by
  refine ⟨[.initOk 0, .ran 0 (some 0), .callStart, .closeCall 0, .callEnd], _,
    Lts.run_of_exec (M := sys true)
      (as := [.init true, .run, .g 0, .callStart 0, .close 0, .callEnd, .g 0, .closeRet 0]) rfl, ?_, rfl, by simp, by simp,
      by simp⟩
  intro k
  by_cases hk : k = 0
  · subst hk; rfl
  · simp [step, sys, init, upd_of_ne _ _ hk]

theorem counts_run {gr : Bool} {h : List LEv} {s : State} (hr : (sys gr).Run h s) (c : Nat) :
    h.count (.closeRet c) + (if s.closing c then 1 else 0) = h.count (.closeCall c) := by
  refine hr.invariant (P := fun h s => h.count (.closeRet c) + (if s.closing c then 1 else 0) = h.count (.closeCall c))
    (by simp [sys, init]) ?_
  intro h s a s' evs _ hi hs
  simp only [sys, step] at hs
  cases a <;> dsimp only at hs <;> (repeat' split at hs) <;> cases hs <;>
    simp only [List.count_append, List.count_cons, List.count_nil, upd_apply] <;> grind

/-- C94: a call of `Close` returns at most once, and is the only thing that makes it return. -/
theorem C94_returns_once {gr : Bool} {h : List LEv} {s : State} (hr : (sys gr).Run h s) (c : Nat) :
    h.count (.closeRet c) ≤ h.count (.closeCall c) := by
  have := counts_run hr c
  omega

end Braid.Server
