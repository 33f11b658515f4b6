import Verif.Span.Spec

/-
Properties C80 and C81: traces of remote calls and of system calls.
-/
namespace Braid.Span

/-- The map the client sends: that of the caller, with the new value at the end of the key of the tracer. -/
theorem client_md (tr : Tracer) (s : State) (root md : Option Nat) (hw : ∀ a, md = some a → a < s.free) :
    let r := client tr s root md
    (r.1.heap r.2.2 = if tr.injects then upd (outgoing s md) (tr.lower tr.key)
      (outgoing s md (tr.lower tr.key) ++ [tr.enc r.2.1]) else outgoing s md) ∧
    (∀ b, b < s.free → r.1.heap b = s.heap b) ∧ r.1.spans = s.spans ++ [⟨r.2.1, root, .client⟩] ∧
    r.2.1 = s.nextSpan ∧ r.1.nextSpan = s.nextSpan + 1 := by
  cases md with
  | none =>
    simp only [client, startSpan, fromOutgoing, alloc, set, outgoing]
    cases tr.injects
    · refine ⟨by simp, fun b hb => ?_, rfl, rfl, rfl⟩
      simp [upd_of_ne _ _ (Nat.ne_of_lt hb)]
    · refine ⟨by simp, fun b hb => ?_, rfl, rfl, rfl⟩
      simp [upd_of_ne _ _ (Nat.ne_of_lt hb)]
  | some a =>
    have ha := hw a rfl
    simp only [client, startSpan, fromOutgoing, alloc, set, outgoing]
    cases tr.injects
    · refine ⟨by simp, fun b hb => ?_, rfl, rfl, rfl⟩
      have h1 : b ≠ s.free + 1 := by omega
      simp [upd_of_ne _ _ (Nat.ne_of_lt hb), upd_of_ne _ _ h1]
    · refine ⟨by simp, fun b hb => ?_, rfl, rfl, rfl⟩
      have h1 : b ≠ s.free + 1 := by omega
      simp [upd_of_ne _ _ (Nat.ne_of_lt hb), upd_of_ne _ _ h1]

/-- **C80**, the caller: no map of metadata that existed before is changed. -/
theorem C80_caller (tr : Tracer) (s : State) (root md : Option Nat) (hw : ∀ a, md = some a → a < s.free) :
    ∀ b, b < s.free → (client tr s root md).1.heap b = s.heap b := (client_md tr s root md hw).2.1

/-- **C80**, other metadata, the part that holds: all keys but that of the tracer and those of gRPC arrive as they are in
the caller's context. What is missing: the keys of gRPC. -/
theorem C80_others_partial (tr : Tracer) (reserved : String → Bool) (s : State) (root md : Option Nat)
    (hw : ∀ a, md = some a → a < s.free) (k : String) (hk : k ≠ tr.lower tr.key) (hr : reserved k = false) :
    carry reserved ((client tr s root md).1.heap (client tr s root md).2.2) k = outgoing s md k := by
  have h := (client_md tr s root md hw).1
  rw [h]
  simp only [carry, hr, Bool.false_eq_true, if_false]
  split
  · exact upd_of_ne _ _ hk
  · rfl

/-- **C80**, spans, the part that holds: the server span is a child of the client span, and that a child of the caller's,
if the tracer can write and its key does not already have a value that cannot be read. What is missing: such values, and
tracers that fail to write. -/
theorem C80_linked_partial (tr : Tracer) (hl : Lawful tr) (reserved : String → Bool) (s : State) (root md : Option Nat)
    (hw : ∀ a, md = some a → a < s.free) (hi : tr.injects = true) (hr : reserved (tr.lower tr.key) = false)
    (hv : ∀ v ∈ outgoing s md (tr.lower tr.key), (tr.dec v).isSome) : Linked tr reserved s root md := by
  obtain ⟨h1, -, h3, h4, h5⟩ := client_md tr s root md hw
  simp only [hi, if_true] at h1
  have he : extract tr (carry reserved ((client tr s root md).1.heap (client tr s root md).2.2)) =
      .found (client tr s root md).2.1 := by
    unfold extract
    have hc : carry reserved ((client tr s root md).1.heap (client tr s root md).2.2) (tr.lower tr.key) =
        outgoing s md (tr.lower tr.key) ++ [tr.enc (client tr s root md).2.1] := by
      simp [carry, hr, h1]
    have hl' : ∀ c, tr.dec (tr.enc c) = some c := hl
    rw [hc, if_neg]
    · simp [hl']
    · simp only [List.any_eq_true, List.mem_append, List.mem_singleton]
      rintro ⟨v, hm | rfl, hn⟩
      · have := hv v hm
        cases hd : tr.dec v <;> simp_all
      · rw [hl] at hn; cases hn
  refine ⟨(client tr s root md).2.1, (client tr s root md).2.2, (client tr s root md).1, (client tr s root md).1.nextSpan,
    (startSpan (client tr s root md).1 (some (client tr s root md).2.1) .server).1, rfl, ?_, ?_, ?_⟩
  · unfold server
    rw [he]; rfl
  · simp only [startSpan, h3]
    simp
  · rw [h4, h5]; omega

/-- **C80** is violated: if the caller's metadata hold a value under the key of the tracer that cannot be read (say from
another tracer), the server starts no span at all. -/
theorem C80_stale_refuted (tr : Tracer) (reserved : String → Bool) (hr : reserved (tr.lower tr.key) = false) (s : State)
    (root : Option Nat) (a : Nat) (ha : a < s.free) (v : String) (hv : v ∈ s.heap a (tr.lower tr.key)) (hd : tr.dec v = none) :
    ¬ Linked tr reserved s root (some a) := by
  rintro ⟨c, b, s1, sv, s2, h1, h2, -⟩
  obtain ⟨k1, -, -, -, -⟩ := client_md tr s root (some a) (by intro x hx; cases hx; exact ha)
  rw [h1] at k1
  simp only [] at k1
  have hm : v ∈ carry reserved (s1.heap b) (tr.lower tr.key) := by
    simp only [carry, hr, k1, Bool.false_eq_true, if_false]
    split
    · simp [outgoing, hv]
    · simp [outgoing, hv]
  have he : extract tr (carry reserved (s1.heap b)) = .error := by
    unfold extract
    rw [if_pos]
    simp only [List.any_eq_true]
    exact ⟨v, hm, by simp [hd]⟩
  unfold server at h2
  rw [he] at h2
  simp at h2

/-- A tracer of numbers in words, and a caller with metadata. -/
def exTracer : Tracer := ⟨"Trace", fun n => String.ofList (List.replicate n 'x'), fun v => some v.length, fun _ => "trace", true⟩

example : Lawful exTracer ∧ Linked exTracer (fun k => k = "te") ⟨fun _ k => if k = "user" then ["u"] else [], 1, [], 5⟩
    (some 3) (some 0) := by
  have hl : Lawful exTracer := by
    intro c
    simp [exTracer]
  refine ⟨hl, C80_linked_partial exTracer hl _ _ _ _ ?_ rfl ?_ ?_⟩
  · intro a ha; cases ha; decide
  · decide
  · intro v hv
    rfl

/-! ### C81 -/

/-- One step at a time. -/
theorem callExec_cons (s : CState) (o : Op) (os : List Op) {s' : CState} {h : List Ev}
    (he : callSys.exec s (o :: os) = some (s', h)) :
    ∃ s1 e1 h1, callStep s o = some (s1, e1) ∧ callSys.exec s1 os = some (s', h1) ∧ h = e1 ++ h1 := by
  simp only [Lts.exec] at he
  split at he
  · cases he
  · rename_i s1 e1 h1
    split at he
    · cases he
    · rename_i s2 e2 h2
      simp only [Option.some.injEq, Prod.mk.injEq] at he
      obtain ⟨rfl, rfl⟩ := he
      exact ⟨s1, e1, e2, h1, h2, rfl⟩

/-- The spans started from a state are numbered from `next` on. -/
theorem starts_exec (ops : List Op) : ∀ (s : CState) (s' : CState) (h : List Ev), callSys.exec s ops = some (s', h) →
    starts h = ((parents ops).zipIdx s.next).map fun x => (x.2, x.1) := by
  induction ops with
  | nil => intro s s' h he; simp [Lts.exec] at he; obtain ⟨rfl, rfl⟩ := he; rfl
  | cons o os ih =>
    intro s s' h he
    obtain ⟨s1, e1, h1, hs, hx, rfl⟩ := callExec_cons s o os he
    have hi := ih s1 s' h1 hx
    cases o with
    | begin p =>
      simp only [callStep, Option.some.injEq, Prod.mk.injEq] at hs
      obtain ⟨rfl, rfl⟩ := hs
      simp only [starts, parents] at hi ⊢
      simp [List.zipIdx_cons, hi]
    | beginBad =>
      simp only [callStep, Option.some.injEq, Prod.mk.injEq] at hs
      obtain ⟨rfl, rfl⟩ := hs
      simpa [starts, parents] using hi
    | fin =>
      simp only [callStep] at hs
      repeat' split at hs
      all_goals
        simp only [Option.some.injEq, Prod.mk.injEq] at hs
        obtain ⟨rfl, rfl⟩ := hs
        simpa [starts, parents] using hi

/-- The span of the object is older than the next one. -/
def Ok (s : CState) : Prop := ∀ i, s.call.span = some i → i < s.next ∧ s.call.starting = true

/-- How often spans are finished, from any state. -/
theorem finishes_exec (ops : List Op) : ∀ (s : CState), Ok s → ∀ (s' : CState) (h : List Ev), callSys.exec s ops = some (s', h) →
    (∀ k, h.count (.finished (s.next + k)) = ends ops k) ∧
    ∀ i, i < s.next → h.count (.finished i) = if s.call.span = some i then ends.endsNow ops else 0 := by
  induction ops with
  | nil =>
    intro s hk s' h he
    simp [Lts.exec] at he
    obtain ⟨rfl, rfl⟩ := he
    exact ⟨fun k => rfl, fun i _ => by simp [ends.endsNow]⟩
  | cons o os ih =>
    intro s hok s' h he
    obtain ⟨s1, e1, h1, hs, hx, rfl⟩ := callExec_cons s o os he
    cases o with
    | begin p =>
      simp only [callStep, Option.some.injEq, Prod.mk.injEq] at hs
      obtain ⟨rfl, rfl⟩ := hs
      obtain ⟨i1, i2⟩ := ih _ (by intro i hi; simp only [Option.some.injEq] at hi; subst hi; exact ⟨Nat.lt_succ_self _, rfl⟩)
        s' h1 hx
      simp only [] at i1 i2
      constructor
      · intro k
        cases k with
        | zero =>
          have := i2 s.next (Nat.lt_succ_self _)
          simpa [ends, List.count_cons] using this
        | succ k =>
          have := i1 k
          rw [show s.next + 1 + k = s.next + (k + 1) by omega] at this
          simpa [ends, List.count_cons] using this
      · intro i hi
        have := i2 i (by omega)
        have hne : s.next ≠ i := by omega
        simp only [Option.some.injEq, hne, if_false] at this
        simp [List.count_cons, this, ends.endsNow]
    | beginBad =>
      simp only [callStep, Option.some.injEq, Prod.mk.injEq] at hs
      obtain ⟨rfl, rfl⟩ := hs
      obtain ⟨i1, i2⟩ := ih _ hok s' h1 hx
      exact ⟨fun k => by simpa [ends] using i1 k, fun i hi => by simpa [ends.endsNow] using i2 i hi⟩
    | fin =>
      simp only [callStep] at hs
      split at hs
      · rename_i hst
        simp only [Option.some.injEq, Prod.mk.injEq] at hs
        obtain ⟨rfl, rfl⟩ := hs
        obtain ⟨i1, i2⟩ := ih _ hok s' h1 hx
        refine ⟨fun k => by simpa [ends] using i1 k, fun i hi => ?_⟩
        have hn : s.call.span ≠ some i := by
          intro h
          have := (hok i h).2
          simp [this] at hst
        have := i2 i hi
        simpa [hn] using this
      · split at hs
        · rename_i j hj
          simp only [Option.some.injEq, Prod.mk.injEq] at hs
          obtain ⟨rfl, rfl⟩ := hs
          obtain ⟨i1, i2⟩ := ih _ hok s' h1 hx
          have hlt := (hok j hj).1
          refine ⟨fun k => ?_, fun i hi => ?_⟩
          · have hne : j ≠ s.next + k := by omega
            simpa [ends, List.count_cons, hne] using i1 k
          · have := i2 i hi
            rw [hj] at this ⊢
            simp only [Option.some.injEq] at this ⊢
            by_cases hij : j = i
            · simp [hij, ends.endsNow] at this ⊢
              exact this
            · simp [hij, List.count_cons] at this ⊢
              exact this
        · rename_i hj
          simp only [Option.some.injEq, Prod.mk.injEq] at hs
          obtain ⟨rfl, rfl⟩ := hs
          obtain ⟨i1, i2⟩ := ih _ hok s' h1 hx
          refine ⟨fun k => by simpa [ends] using i1 k, fun i hi => ?_⟩
          have := i2 i hi
          simpa [hj] using this

/-- **C81**, what happens, exactly: the `k`th span is finished by every `End` up to the next `Begin`, and its parent is the
span in the context given to its `Begin`. -/
theorem C81_exact (ops : List Op) {s : CState} {h : List Ev} (he : execOps ops = some (s, h)) :
    (∀ k, h.count (.finished k) = ends ops k) ∧ starts h = (parents ops).zipIdx.map fun x => (x.2, x.1) := by
  have h1 := finishes_exec ops _ (by intro i hi; cases hi) s h he
  have h2 := starts_exec ops _ s h he
  refine ⟨fun k => ?_, h2⟩
  have := h1.1 k
  simpa [callSys] using this

/-- **C81**, the part that holds: used as in `System.Call` and `System.Send`, one `End` after each `Begin`, every span is
finished exactly once. What is missing: other orders. -/
theorem C81_partial {ops : List Op} (ha : Alternate ops) {s : CState} {h : List Ev} (he : execOps ops = some (s, h)) :
    OnceEach h := by
  intro i p hm
  obtain ⟨h1, h2⟩ := C81_exact ops he
  rw [h1 i]
  have hi : i < (parents ops).length := by
    have : (i, p) ∈ starts h := List.mem_filterMap.2 ⟨_, hm, rfl⟩
    rw [h2] at this
    simp only [List.mem_map] at this
    obtain ⟨⟨q, j⟩, hx, hy⟩ := this
    cases hy
    have := List.mem_zipIdx hx
    omega
  clear h1 h2 hm he
  induction ha generalizing i with
  | nil => simp [parents] at hi
  | @pair q os ha ih =>
    cases i with
    | zero =>
      cases ha with
      | nil => rfl
      | pair q' ha => rfl
    | succ i =>
      have : ends (.begin q :: .fin :: os) (i + 1) = ends os i := rfl
      rw [this]
      refine ih i ?_
      simpa [parents] using hi

/-- **C81**, `End` without `Begin` does nothing. -/
theorem C81_end_first (n : Nat) : execOps (List.replicate n .fin) = some (callSys.init, []) := by
  unfold execOps
  induction n with
  | zero => rfl
  | succ n ih => rw [List.replicate_succ, Lts.exec_cons (M := callSys) (s1 := callSys.init) (e1 := []) rfl ih]; rfl

/-- **C81** is violated: a second `End` finishes the span again, and a second `Begin` leaves the first span open. -/
theorem C81_refuted : (∃ s h, execOps [.begin none, .fin, .fin] = some (s, h) ∧ ¬ OnceEach h) ∧
    ∃ s h, execOps [.begin none, .begin none, .fin] = some (s, h) ∧ ¬ OnceEach h := by
  refine ⟨⟨_, _, rfl, fun h => ?_⟩, ⟨_, _, rfl, fun h => ?_⟩⟩
  · exact absurd (h 0 none (List.mem_cons_self ..)) (by decide)
  · exact absurd (h 0 none (List.mem_cons_self ..)) (by decide)

/-- Two calls, one of them inside another trace. -/
example : Alternate [.begin (some 7), .fin, .begin none, .fin] ∧
    execOps [.begin (some 7), .fin, .begin none, .fin] =
      some (⟨⟨some 1, true⟩, 2⟩, [.started 0 (some 7), .finished 0, .started 1 none, .finished 1]) :=
  ⟨.pair _ (.pair _ .nil), rfl⟩

end Braid.Span
