import Verif.Live.Orphan
import Verif.Live.Props

/-
C121: an actor that was unregistered is gone: it is not alive, no node finds it, no call reaches it, and it can be
registered again.
-/
namespace Braid.Live
open AddressBook Spec

variable {cfg : Nat → NodeCfg} {factory : Nat → String → Option Int} {n : Nat} {id ty : String}

/-- C121, the part that holds whatever fails: once an `Unregister` of the actor has returned, with or without an
error, no actor with the id is alive on the node, and none is in the map of any node, until a `Register` of it
begins. Missing: operations that overlap with the `Register` or `Unregister` of the actor (`Apart`), see
`C121_overlap_refuted`; actors with an id that another node uses too (`Owned`). -/
theorem C121_stopped_partial (hcfg : OwnAddress cfg n) {h : List Ev} {s : State} (hr : (sys cfg factory).Run h s)
    (ho : Owned n id ty h) (ha : Apart n id ty h) (hg : Returned n id h) :
    (∀ m, Register.get (s.r.map m) id = none) ∧
    ∀ i, (s.r.inst i).node = n → (s.r.inst i).id = id → s.r.alive i = false := by
  have hw := out_run hcfg hr ho ha hg
  refine ⟨fun m => ?_, dead_run hcfg hr ho ha hw⟩
  by_cases h : m = n
  · subst h; exact hw.map
  · exact (keep_run hcfg hr ho ha).mapM m h

/-- C121, the part that holds: if Redis does not fail during `Unregister` and the cleanup in `Call`, then once an
`Unregister` of the actor has returned nil no record of it is left in Redis, neither by its id nor among the
actors of any type, and no node has it in its `IDMap`, until a `Register` of it begins. Anything else may fail.
Missing: failures of Redis in `Unregister`, see `C121_fault_refuted` and `C121_half_refuted`; overlapping
operations, see `C121_overlap_refuted` and `C121_call_refuted`; other owners, see `C121_owner_refuted`. -/
theorem C121_gone_partial (hcfg : OwnAddress cfg n) {h : List Ev} {s : State}
    (hr : (sureSys cfg factory removing).Run h s) (ho : Owned n id ty h) (ha : Apart n id ty h)
    (hg : Unregistered n id h) : NoRecord id s.r.W := by
  have hr' := sure_run hr
  have hw := away_run hcfg (fun _ h => h) hr ho ha hg
  have hk := keep_run hcfg hr' ho ha
  refine ⟨hw.ids, fun t a h1 h2 => ?_, fun m => ?_⟩
  · have := hk.tyA t a h1 h2
    have h3 := (shape_run hr').tys t a h1
    subst this
    have h4 : ty = t := h3
    subst h4
    exact hw.tys h1
  · by_cases h : m = n
    · subst h; exact hw.book
    · exact hk.idmap m h

/-- C121, the part that holds: under the same conditions a call, on any node and for any target, that begins after
the `Unregister` returned nil and during which no `Register` of the actor begins, does not find the actor. A call
by its id reports that there is no such actor, unless Redis fails. -/
theorem C121_not_reached_partial (hcfg : OwnAddress cfg n) (h1 : id ≠ "?") (h2 : id ≠ "~")
    {pre mid post : List Ev} {e : Ev} {s : State} {g m : Nat} {t u : String} (h0 : t ≠ "")
    (hr : (sureSys cfg factory removing).Run ((pre ++ .call g m t u :: mid) ++ e :: post) s)
    (ho : Owned n id ty ((pre ++ .call g m t u :: mid) ++ e :: post))
    (ha : Apart n id ty ((pre ++ .call g m t u :: mid) ++ e :: post))
    (hg : Unregistered n id pre) (hc : Still n id mid) (hn : ∀ e ∈ mid, ¬ Ends g e) (he : Ends g e) :
    ¬ Finds id e ∧ (t = id → e = .ret g .unknown ∨ e = .ret g .failed) :=
  off_end hcfg (fun _ h => h) h0 h1 h2 hr ho ha rfl hg hc hn he

/-- C121, the part that holds: if nothing fails, the actor can be registered again. A `Register` of it that begins
after the `Unregister` returned nil ends with nil, unless the type has a limit. -/
theorem C121_again_partial (hcfg : OwnAddress cfg n) {b : Register.Builder} (hid : b.id ≠ "") (hty : b.ty ≠ "")
    {pre mid post : List Ev} {e : Ev} {s : State} {g : Nat}
    (hr : (sureSys cfg factory (fun _ => true)).Run ((pre ++ .reg (.begin g (.reg n b)) :: mid) ++ e :: post) s)
    (ho : Owned n b.id ty ((pre ++ .reg (.begin g (.reg n b)) :: mid) ++ e :: post))
    (ha : Apart n b.id ty ((pre ++ .reg (.begin g (.reg n b)) :: mid) ++ e :: post))
    (hg : Unregistered n b.id pre) (hn : ∀ e ∈ mid, ¬ Ends g e) (he : Ends g e) :
    e = .reg (.finish g .ok) ∨ b.limit ≠ 0 ∧ e = .reg (.finish g .err) :=
  fresh_end hcfg hid hty hr ho ha rfl hg hn he

/-- `Unregistered`, computed: the `Unregister` of `g` returned as event `k`. -/
theorem unregistered_of {h : List Ev} (k g : Nat) (t : String)
    (h1 : h[k]? = some (.reg (.finish g .ok))) (h2 : (g, .unreg n id t) ∈ activeOf (h.take k))
    (h4 : (h.drop (k + 1)).all (fun e =>
      match begins e with
      | some (.reg m b) => m ≠ n || b.id ≠ id
      | _ => true) = true) : Unregistered n id h := by
  obtain ⟨hk, h1⟩ := List.getElem?_eq_some_iff.1 h1
  refine ⟨h.take k, g, t, h.drop (k + 1), ?_, h2, ?_⟩
  · rw [← h1, List.getElem_cons_drop, List.take_append_drop]
  · intro e he b hb hx
    have := List.all_eq_true.1 h4 e he
    rw [hx] at this
    simp [hb] at this

/-- Where the actions lead when nothing fails at the points `bad`. -/
def finalS (bad : Register.Pc → Bool) (as : List Act) : State × List Ev :=
  ((sureSys exCfg exFactory bad).exec init as).getD (init, [])

theorem run_finalS {bad : Register.Pc → Bool} {as : List Act}
    (h : ((sureSys exCfg exFactory bad).exec init as).isSome = true) :
    (sureSys exCfg exFactory bad).Run (finalS bad as).2 (finalS bad as).1 := by
  unfold finalS
  cases hx : (sureSys exCfg exFactory bad).exec init as with
  | none => rw [hx] at h; cases h
  | some p => exact Lts.run_of_exec (M := sureSys exCfg exFactory bad) hx

/-- A goroutine unregisters "x" on node 0: it stops the actor, and removes it from the map. -/
def stopX (g : Nat) : List Act := .reg (.start g (.unreg 0 "x" "t")) :: List.replicate 4 (.reg (.go g))

/-- The rest of it: the record and the `IDMap`. -/
def dropX (g : Nat) : List Act := List.replicate 7 (.reg (.go g))

/-- A goroutine tries to register "x" again on node 0, and fails. -/
def retryX (g : Nat) : List Act := [.reg (.start g (.reg 0 bx)), .reg (.go g), .reg (.go g)]

/-- "x" is registered and unregistered on node 0, called on both nodes, and registered again. -/
def goneActs : List Act :=
  regX 0 ++ stopX 1 ++ dropX 1 ++ [.call 2 0 "x" "t", .call 3 1 "x" "t", .call 4 1 "?" "t", .fail 4] ++
  [.go 2, .go 3, .go 2, .go 3, .go 2, .go 3]

example : ∃ h s, (sureSys exCfg exFactory removing).Run h s ∧ Owned 0 "x" "t" h ∧ Apart 0 "x" "t" h ∧
    Unregistered 0 "x" h ∧ .ret 2 .unknown ∈ h ∧ .ret 3 .unknown ∈ h ∧ (s.r.inst 0).id = "x" :=
  ⟨(finalS removing goneActs).2, (finalS removing goneActs).1, run_finalS (by decide +kernel),
    owned_of (by decide +kernel), apart_of (by decide +kernel),
    unregistered_of 5 1 "t" (by decide +kernel) (by decide +kernel) (by decide +kernel),
    by decide +kernel, by decide +kernel, by decide +kernel⟩

example : ∃ h s, (sys exCfg exFactory).Run h s ∧ Owned 0 "x" "t" h ∧ Apart 0 "x" "t" h ∧ Returned 0 "x" h ∧
    s.r.inst 0 = ⟨0, "x", "t"⟩ := by
  refine ⟨(finalS removing goneActs).2, (finalS removing goneActs).1, sure_run (run_finalS (by decide +kernel)),
    owned_of (by decide +kernel), apart_of (by decide +kernel), ?_, by decide +kernel⟩
  obtain ⟨pre, g, t, post, h1, h2, h3⟩ := unregistered_of (n := 0) (id := "x") (h := (finalS removing goneActs).2) 5 1 "t"
    (by decide +kernel) (by decide +kernel) (by decide +kernel)
  exact ⟨pre, g, .ok, t, post, h1, by simp, h2, h3⟩

/-- The same, and it is registered again. -/
def againActs : List Act := goneActs ++ regX 5

example : ∃ pre mid e post s, (sureSys exCfg exFactory (fun _ => true)).Run
      ((pre ++ .reg (.begin 5 (.reg 0 bx)) :: mid) ++ e :: post) s ∧
    Owned 0 "x" "t" ((pre ++ .reg (.begin 5 (.reg 0 bx)) :: mid) ++ e :: post) ∧
    Apart 0 "x" "t" ((pre ++ .reg (.begin 5 (.reg 0 bx)) :: mid) ++ e :: post) ∧
    Unregistered 0 "x" pre ∧ (∀ e ∈ mid, ¬ Ends 5 e) ∧ Ends 5 e := by
  have hev : (finalS (fun _ => true) againActs).2 =
      ((finalS (fun _ => true) againActs).2.take 12 ++ .reg (.begin 5 (.reg 0 bx)) ::
        [.reg (.created 1 ⟨0, "x", "t"⟩)]) ++ .reg (.finish 5 .ok) :: [] := by decide +kernel
  refine ⟨(finalS (fun _ => true) againActs).2.take 12, [.reg (.created 1 ⟨0, "x", "t"⟩)], .reg (.finish 5 .ok), [],
    (finalS (fun _ => true) againActs).1, ?_, ?_, ?_, ?_, ?_, rfl⟩
  · rw [← hev]; exact run_finalS (by decide +kernel)
  · rw [← hev]; exact owned_of (by decide +kernel)
  · rw [← hev]; exact apart_of (by decide +kernel)
  · exact unregistered_of 5 1 "t" (by decide +kernel) (by decide +kernel) (by decide +kernel)
  · intro e he; cases List.mem_singleton.1 he; exact fun h => h

/-- Redis fails when `Unregister` asks for the record. -/
def faultActs : List Act :=
  regX 0 ++ stopX 1 ++ [.reg (.fail 1), .call 2 1 "x" "t", .go 2, .go 2, .go 2, .go 2] ++ retryX 3

/-- C121 is violated when Redis fails in `Unregister`, which returns nil all the same: the record of the actor
stays, calls on other nodes go on to its node, and the actor cannot be registered again. -/
theorem C121_fault_refuted : ∃ h s, (sys exCfg exFactory).Run h s ∧ Owned 0 "x" "t" h ∧ Apart 0 "x" "t" h ∧
    (∃ pre post, h = pre ++ post ∧ Unregistered 0 "x" pre ∧
      post = [.call 2 1 "x" "t", .ret 2 (.forward (record exCfg 0 "x" "t")),
        .reg (.begin 3 (.reg 0 bx)), .reg (.finish 3 .err)]) ∧
    activeOf h = [] ∧ Found exCfg 0 "x" "t" s.r.W ∧ s.r.alive 0 = false :=
  ⟨(final faultActs).2, (final faultActs).1, run_final (by decide +kernel),
    owned_of (by decide +kernel), apart_of (by decide +kernel),
    ⟨(final faultActs).2.take 6, (final faultActs).2.drop 6, by decide +kernel,
      unregistered_of 5 1 "t" (by decide +kernel) (by decide +kernel) (by decide +kernel), by decide +kernel⟩,
    by decide +kernel, ⟨by decide +kernel, by decide +kernel⟩, by decide +kernel⟩

/-- Redis fails after the first command of the removal. The actor is unregistered once more, without a failure,
and then called on node 1, and registered. -/
def halfActs : List Act :=
  regX 0 ++ stopX 1 ++ [.reg (.go 1), .reg (.go 1), .reg (.fail 1)] ++
  .reg (.start 2 (.unreg 0 "x" "t")) :: List.replicate 3 (.reg (.go 2)) ++
  [.call 3 1 "?" "t", .pick 3 (record exCfg 0 "x" "t"), .go 3, .go 3] ++ retryX 4

/-- C121 is violated when Redis fails in the middle of the removal, and this cannot be repaired: a second
`Unregister`, during which nothing fails, finds no record by the id, and returns nil at once. The record among the
actors of the type stays, calls of any actor of the type on other nodes are sent to it, and the actor cannot be
registered again. -/
theorem C121_half_refuted : ∃ h s, (sys exCfg exFactory).Run h s ∧ Owned 0 "x" "t" h ∧ Apart 0 "x" "t" h ∧
    (∃ pre post, h = pre ++ .reg (.begin 2 (.unreg 0 "x" "t")) :: .reg (.finish 2 .ok) :: post ∧
      Unregistered 0 "x" pre ∧
      post = [.call 3 1 "?" "t", .ret 3 (.forward (record exCfg 0 "x" "t")),
        .reg (.begin 4 (.reg 0 bx)), .reg (.finish 4 .err)]) ∧
    activeOf h = [] ∧ s.r.W.redis.ids "x" = none ∧ record exCfg 0 "x" "t" ∈ s.r.W.redis.tys "t" ∧
    s.r.alive 0 = false :=
  ⟨(final halfActs).2, (final halfActs).1, run_final (by decide +kernel),
    owned_of (by decide +kernel), apart_of (by decide +kernel),
    ⟨(final halfActs).2.take 6, (final halfActs).2.drop 8, by decide +kernel,
      unregistered_of 5 1 "t" (by decide +kernel) (by decide +kernel) (by decide +kernel), by decide +kernel⟩,
    by decide +kernel, by decide +kernel, by decide +kernel, by decide +kernel⟩

/-- Node 1 unregisters the actor of node 0, then node 0 does, and registers it again. -/
def strayActs : List Act :=
  regX 0 ++ .reg (.start 1 (.unreg 1 "x" "t")) :: List.replicate 9 (.reg (.go 1)) ++
  stopX 2 ++ [.reg (.go 2)] ++ retryX 3

/-- C121 is violated by `Unregister` of the id on a node that does not have the actor, though nothing fails and
nothing overlaps: the `Unregister` on its node then finds no record, leaves the id in the `IDMap`, and returns nil.
The actor cannot be registered again. -/
theorem C121_owner_refuted : ∃ h s, (sureSys exCfg exFactory (fun _ => true)).Run h s ∧ Apart 0 "x" "t" h ∧
    (∃ pre, h = pre ++ [.reg (.begin 3 (.reg 0 bx)), .reg (.finish 3 .err)] ∧ Unregistered 0 "x" pre) ∧
    activeOf h = [] ∧ s.r.W.redis.ids "x" = none ∧ s.r.W.redis.tys "t" = [] ∧ s.r.W.idmap 0 "x" = true ∧
    s.r.alive 0 = false :=
  ⟨(finalS (fun _ => true) strayActs).2, (finalS (fun _ => true) strayActs).1, run_finalS (by decide +kernel),
    apart_of (by decide +kernel),
    ⟨(finalS (fun _ => true) strayActs).2.take 8, by decide +kernel,
      unregistered_of 7 2 "t" (by decide +kernel) (by decide +kernel) (by decide +kernel)⟩,
    by decide +kernel, by decide +kernel, by decide +kernel, by decide +kernel, by decide +kernel⟩

/-- `Unregister` runs while the actor is registered, after its record was written. -/
def overlapActs : List Act :=
  (regX 0).take 10 ++ .reg (.start 1 (.unreg 0 "x" "t")) :: List.replicate 9 (.reg (.go 1)) ++ (regX 0).drop 10

/-- C121 is violated by an `Unregister` that overlaps with the `Register` of the actor, though nothing fails: both
return nil, the actor is alive and in the map, and it has no record. -/
theorem C121_overlap_refuted : ∃ h s, (sureSys exCfg exFactory (fun _ => true)).Run h s ∧ Owned 0 "x" "t" h ∧
    Unregistered 0 "x" h ∧ .reg (.finish 0 .ok) ∈ h ∧ activeOf h = [] ∧
    Register.get (s.r.map 0) "x" = some 0 ∧ s.r.alive 0 = true ∧ s.r.W.redis.ids "x" = none :=
  ⟨(finalS (fun _ => true) overlapActs).2, (finalS (fun _ => true) overlapActs).1, run_finalS (by decide +kernel),
    owned_of (by decide +kernel),
    unregistered_of 2 1 "t" (by decide +kernel) (by decide +kernel) (by decide +kernel),
    by decide +kernel, by decide +kernel, by decide +kernel, by decide +kernel, by decide +kernel⟩

/-- A call on node 0 during `Unregister` takes the record for a stale one, and starts to remove it. `Unregister`
finds no record by the id any more. -/
def cleanActs : List Act :=
  regX 0 ++ stopX 1 ++ [.call 2 0 "x" "t", .go 2, .go 2, .go 2, .reg (.go 2), .reg (.go 2)] ++ [.reg (.go 1)] ++
  [.call 3 1 "?" "t", .pick 3 (record exCfg 0 "x" "t"), .go 3, .go 3] ++ retryX 4

/-- C121 is violated by a call of the actor on its node during `Unregister`, though nothing fails: `Unregister`
returns nil before the call has removed the record among the actors of the type. Calls on other nodes still find
it, and the actor cannot be registered again yet. -/
theorem C121_call_refuted : ∃ h s, (sureSys exCfg exFactory (fun _ => true)).Run h s ∧ Owned 0 "x" "t" h ∧
    ∃ pre post, h = pre ++ post ∧ Unregistered 0 "x" pre ∧
      post = [.call 3 1 "?" "t", .ret 3 (.forward (record exCfg 0 "x" "t")),
        .reg (.begin 4 (.reg 0 bx)), .reg (.finish 4 .err)] ∧ s.r.alive 0 = false :=
  ⟨(finalS (fun _ => true) cleanActs).2, (finalS (fun _ => true) cleanActs).1, run_finalS (by decide +kernel),
    owned_of (by decide +kernel),
    (finalS (fun _ => true) cleanActs).2.take 8, (finalS (fun _ => true) cleanActs).2.drop 8, by decide +kernel,
    unregistered_of 7 1 "t" (by decide +kernel) (by decide +kernel) (by decide +kernel), by decide +kernel,
    by decide +kernel⟩

end Braid.Live
