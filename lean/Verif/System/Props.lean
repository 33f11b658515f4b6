import Verif.System.Lemmas
import Verif.Actor.Model

/-
C22–C28: headers and routing.
-/
namespace Braid.System
open AddressBook Spec

/-! ### An example cluster -/

/-- Two nodes, with the actors "x" and "z" of type "t". -/
def exNode : Nat → Node
  | 0 => ⟨[("x", "t")], fun ty => if ty = "t" then some 3 else none⟩
  | 1 => ⟨[("z", "t")], fun ty => if ty = "t" then some 5 else none⟩
  | _ => ⟨[], fun _ => none⟩

/-- Node `n` listens at port `n`. -/
def exC : Cluster := ⟨exCfg, exNode, fun ip p => if ip = "10.0.0.1" ∧ 0 ≤ p then some p.toNat else none⟩

theorem exC_consistent : Consistent exC (runOps exCfg exOps) := by
  refine consistent_of_ops (C := exC) (own := exOwn) exCfg_distinct exOps_legal (by decide) ?_ ?_
  · intro n; simp [exC, exCfg]
  · intro n id ty
    have hdir : AddressBook.Spec.dir exOps = [⟨"x", "t", 0, 3⟩, ⟨"z", "t", 1, 5⟩] := by decide +kernel
    rw [hdir]
    match n with
    | 0 => simp [Hosts, exC, exNode, eq_comm]
    | 1 => simp [Hosts, exC, exNode, eq_comm]
    | n + 2 => simp [Hosts, exC, exNode]

/-! ### C22 -/

theorem chain_org : ∀ (hops : List Hop) (h : Header), h.orgId ≠ "" →
    (chain h hops).orgId = h.orgId ∧ (chain h hops).orgTy = h.orgTy
  | [], _, _ => ⟨rfl, rfl⟩
  | p :: r, h, hne => by
    have h1 : (actorHeader p.actor h).orgId = h.orgId ∧ (actorHeader p.actor h).orgTy = h.orgTy := by
      simp [actorHeader, hne]
    have := chain_org r (if p.remote then sysHeader p.target p.ty p.event
      (acceptorHeader (sysHeader p.target p.ty p.event (actorHeader p.actor h)))
      else sysHeader p.target p.ty p.event (actorHeader p.actor h))
      (by split <;> simp [sysHeader, acceptorHeader, h1.1, hne])
    rw [chain]
    refine ⟨this.1.trans ?_, this.2.trans ?_⟩ <;> split <;> simp [sysHeader, acceptorHeader, h1.1, h1.2]

theorem chain_append (h : Header) (l r : List Hop) : chain h (l ++ r) = chain (chain h l) r := by
  induction l generalizing h with
  | nil => rfl
  | cons p l ih => rw [List.cons_append, chain, chain, ih]

/-- C22, origin: after any number of further hops, local or remote, the message carries the id and type of
the first actor. -/
theorem C22_origin (h : Header) (hfresh : h.orgId = "") (p : Hop) (hid : p.actor.id ≠ "") (rest : List Hop) :
    (chain h (p :: rest)).orgId = p.actor.id ∧ (chain h (p :: rest)).orgTy = p.actor.ty := by
  rw [chain]
  have h1 : (actorHeader p.actor h).orgId = p.actor.id ∧ (actorHeader p.actor h).orgTy = p.actor.ty := by
    simp [actorHeader, hfresh]
  have := chain_org rest (if p.remote then sysHeader p.target p.ty p.event
      (acceptorHeader (sysHeader p.target p.ty p.event (actorHeader p.actor h)))
      else sysHeader p.target p.ty p.event (actorHeader p.actor h))
      (by split <;> simp [sysHeader, acceptorHeader, h1.1, hid])
  refine ⟨this.1.trans ?_, this.2.trans ?_⟩ <;> split <;> simp [sysHeader, acceptorHeader, h1.1, h1.2]

/-- C22, previous type: after a hop within a node it is the type of the calling actor. This is the part that
holds; missing: hops to another node, see `C22_remote_prev_refuted`. -/
theorem C22_prev_partial (h : Header) (hops : List Hop) (p : Hop) (hl : p.remote = false) :
    (chain h (hops ++ [p])).prevTy = p.actor.ty := by
  rw [chain_append]
  simp [chain, hl, sysHeader, actorHeader]

/-- C22 is violated by remote hops: the acceptor overwrites the previous type, whoever calls. -/
theorem C22_remote_prev_refuted (h : Header) (hops : List Hop) (p : Hop) (hr : p.remote = true) :
    (chain h (hops ++ [p])).prevTy = "GrpcAcceptor" := by
  rw [chain_append]
  simp [chain, hr, sysHeader, acceptorHeader]

/-- C22: a message whose chain started at an actor is refused by that actor with the self-call error, and
nothing happens in the actor: not queued, not counted. Here `m` is the message as the actor model
(`Verif/Actor`) sees it, and `s` is any state of the actor. -/
theorem C22_never_accepted (h : Header) (hfresh : h.orgId = "") (p : Hop) (hid : p.actor.id ≠ "")
    (rest : List Hop) (closed : Bool) :
    received p.actor.id closed (chain h (p :: rest)) = .selfCall ∧
    ∀ (s : Actor.State) (g : Nat) (m : Actor.Msg) s' evs, m.org = (chain h (p :: rest)).orgId →
      Actor.step p.actor.id s (.recv g m) = some (s', evs) →
      s' = s ∧ evs = [.call g m, .refused g m true] := by
  have ho := (C22_origin h hfresh p hid rest).1
  refine ⟨by simp [received, ho, hid], ?_⟩
  intro s g m s' evs hm hs
  rw [ho] at hm
  simp only [Actor.step] at hs
  repeat' split at hs
  all_goals simp_all

/-- A chain through three actors on two nodes, back to the first. -/
def exHops : List Hop :=
  [⟨⟨"x", "t"⟩, true, "z", "t", "e"⟩, ⟨⟨"z", "t"⟩, false, "w", "u", "f"⟩, ⟨⟨"w", "u"⟩, true, "x", "t", "g"⟩]

def exHeader : Header := ⟨"", "", "", "", "", ""⟩

example : (chain exHeader exHops).orgId = "x" ∧ (chain exHeader exHops).targetId = "x" :=
  ⟨(C22_origin _ rfl _ (by decide) _).1, by decide⟩
example : received "x" false (chain exHeader exHops) = .selfCall :=
  (C22_never_accepted exHeader rfl _ (by decide) _ false).1
/-- Another actor accepts it. -/
example : received "y" false (chain exHeader exHops) = .queued := by decide
example : (chain exHeader (exHops.take 1 ++ [exHops[1]])).prevTy = "t" := C22_prev_partial _ _ _ rfl
example : (chain exHeader (exHops.take 2 ++ [exHops[2]])).prevTy = "GrpcAcceptor" :=
  C22_remote_prev_refuted _ _ _ rfl
/-- The actor model reaches states in which the refusal is a step. -/
example : Actor.step "x" Actor.init (.recv 0 ⟨0, 0, "x", "e"⟩) =
    some (Actor.init, [.call 0 ⟨0, 0, "x", "e"⟩, .refused 0 ⟨0, 0, "x", "e"⟩ true]) := by
  first | rfl | simp [Actor.step]

/-! ### C23 -/

/-- C23: an empty target is an error, and nothing changes. -/
theorem C23_empty_target (C : Cluster) (W : World) (n : Nat) (ty : String) (o : Oracle) :
    (route C W n "" ty o).outcome n = some (.failed n) ∧ effect C W n (route C W n "" ty o) = W := by
  simp [route, Decision.outcome, effect]

/-- C23 (partial): an id hosted here is delivered here, whatever the address book contains and returns. Missing: the ids `?` and
`~` (`C23_symbol_id_refuted`). -/
theorem C23_local_id_partial (C : Cluster) (n : Nat) (target ty ty' : String) (hp : Plain target) (hne : target ≠ "")
    (hh : Hosts C n target ty') (W : World) (o : Oracle) :
    (route C W n target ty o).outcome n = some (.delivered n target) ∧
    effect C W n (route C W n target ty o) = W := by
  rw [route_here hp hne hh]; exact ⟨rfl, rfl⟩

/-- C23: `~` is delivered to a local actor of the type if there is one, whatever the address book. -/
theorem C23_local_first (C : Cluster) (n : Nat) (ty id : String) (hh : Hosts C n id ty) (W : World) (o : Oracle)
    (ho : o.order.Perm (C.node n).actors) :
    ∃ id', Hosts C n id' ty ∧ (route C W n "~" ty o).outcome n = some (.delivered n id') ∧
      effect C W n (route C W n "~" ty o) = W := by
  have hs : (o.order.find? (·.2 = ty)).isSome := by
    rw [List.find?_isSome]
    exact ⟨(id, ty), ho.mem_iff.2 hh, by simp⟩
  obtain ⟨⟨id', ty'⟩, hf⟩ := Option.isSome_iff_exists.1 hs
  have h1 := List.find?_some hf
  simp only [decide_eq_true_eq] at h1
  subst h1
  refine ⟨id', ho.mem_iff.1 (List.mem_of_find?_eq_some hf), ?_⟩
  simp [route, hf, Decision.outcome, effect]

/-- C23: otherwise the address book decides: nothing is delivered here, an address of another node is
called, and a lookup error is returned. By id. -/
theorem C23_otherwise_id (C : Cluster) (W : World) (n : Nat) (target ty : String) (hp : Plain target)
    (hne : target ≠ "") (hh : ∀ ty', ¬ Hosts C n target ty') (o : Oracle) :
    (∀ id, route C W n target ty o ≠ .here id) ∧
    (∀ a, getByID C.cfg W n target = .ok a → ¬ (a.ip = (C.cfg n).ip ∧ a.port = (C.cfg n).port) →
      route C W n target ty o = .forward a) ∧
    (∀ e, getByID C.cfg W n target = .error e → (route C W n target ty o).outcome n = some (.failed n)) := by
  have hn : C.has n target = false := by
    cases h : C.has n target with
    | false => rfl
    | true => obtain ⟨ty2, h2⟩ := has_iff.1 h; exact absurd h2 (hh _)
  unfold route
  rw [if_neg hne, if_neg hp.1, if_neg hp.2, hn]
  refine ⟨?_, ?_, ?_⟩
  · intro id
    cases getByID C.cfg W n target with
    | error e => simp
    | ok a => simp only [resolve, Bool.false_eq_true, if_false]; split
              · split <;> simp
              · simp
  · intro a ha hne; simp [ha, resolve, hne]
  · intro e he; simp [he, Decision.outcome]

/-- C23: otherwise the address book decides, for `~`. -/
theorem C23_otherwise_local_first (C : Cluster) (W : World) (n : Nat) (ty : String)
    (hh : ∀ id, ¬ Hosts C n id ty) (o : Oracle) (ho : o.order.Perm (C.node n).actors) :
    (∀ id, route C W n "~" ty o ≠ .here id) ∧
    (∀ a, wildcard (totalWeight W) o.sample = .ok a → ¬ (a.ip = (C.cfg n).ip ∧ a.port = (C.cfg n).port) →
      route C W n "~" ty o = .forward a) ∧
    (∀ e, wildcard (totalWeight W) o.sample = .error e →
      (route C W n "~" ty o).outcome n = some (.failed n)) := by
  have hf : o.order.find? (·.2 = ty) = none := by
    rw [List.find?_eq_none]
    rintro ⟨id, ty'⟩ h1
    simp only [decide_eq_true_eq]
    rintro rfl
    exact hh id (ho.mem_iff.1 h1)
  have h0 : route C W n "~" ty o = match wildcard (totalWeight W) o.sample with
      | .ok info => resolve C n ty info
      | .error e => .unknown e := by
    simp only [route, hf]
    cases wildcard (totalWeight W) o.sample <;> simp
  rw [h0]
  refine ⟨?_, ?_, ?_⟩
  · intro id
    cases wildcard (totalWeight W) o.sample with
    | error e => simp
    | ok a => simp only [resolve]; split
              · split <;> simp
              · simp
  · intro a ha hne; simp [ha, resolve, hne]
  · intro e he; simp [he, Decision.outcome]

/-- Corner of C23 and C24: `Register` accepts the ids "?" and "~", but such an actor cannot be addressed by
its id, not even on its own node. -/
theorem C23_symbol_id_refuted : ∃ (C : Cluster) (W : World) (o : Oracle), Hosts C 0 "?" "t" ∧
    o.Valid C W 0 "u" ∧ ∀ id, route C W 0 "?" "u" o ≠ .here id := by
  refine ⟨⟨exCfg, fun _ => ⟨[("?", "t")], fun _ => none⟩, fun _ _ => none⟩, runOps exCfg [.register 0 "t" "?" 1],
    ⟨[], [("?", "t")]⟩, by simp [Hosts], ⟨⟨by simp, by simp, by decide +kernel⟩, List.Perm.refl _⟩, ?_⟩
  intro id
  simp [route, wildcard, Cluster.has, Addr.zero]

example : (route exC (runOps exCfg exOps) 0 "x" "t" ⟨[], []⟩).outcome 0 = some (.delivered 0 "x") :=
  (C23_local_id_partial exC 0 "x" "t" "t" (by unfold Plain; decide) (by decide) (by simp [Hosts, exC, exNode]) _ _).1
example : ∃ id', Hosts exC 0 id' "t" ∧
    (route exC World.init 0 "~" "t" ⟨[], [("x", "t")]⟩).outcome 0 = some (.delivered 0 id') ∧
      effect exC World.init 0 (route exC World.init 0 "~" "t" ⟨[], [("x", "t")]⟩) = World.init :=
  C23_local_first exC 0 "t" "x" (by simp [Hosts, exC, exNode]) World.init ⟨[], [("x", "t")]⟩ (List.Perm.refl _)
example : route exC (runOps exCfg exOps) 0 "z" "t" ⟨[], []⟩ = .forward ⟨"z", "t", "aa", "10.0.0.1", 1⟩ :=
  (C23_otherwise_id exC _ 0 "z" "t" (by unfold Plain; decide) (by decide) (by simp [Hosts, exC, exNode]) _).2.1 _
    (by decide +kernel) (by decide)

/-! ### C24 -/

/-- C24 (partial): in a consistent cluster a call by id reaches the actor with this id and nobody else: without a hop
if it is here, with exactly one if it is on another node; if there is none, the caller gets an error. Missing:
the ids `?` and `~` (`C24_symbol_id_refuted`). -/
theorem C24_by_id_partial {C : Cluster} {W : World} (hc : Consistent C W) (target ty : String) (hp : Plain target)
    (n k : Nat) (o : Outcome) :
    Travel C W target ty n k o ↔
      (∃ ty', Hosts C n target ty' ∧ k = 0 ∧ o = .delivered n target) ∨
      (∃ m ty', m ≠ n ∧ Hosts C m target ty' ∧ k = 1 ∧ o = .delivered m target) ∨
      ((∀ m ty', ¬ Hosts C m target ty') ∧ k = 0 ∧ o = .failed n) := by
  obtain ⟨or0, hv⟩ := exists_oracle hc n ty
  by_cases hex : ∃ m ty', Hosts C m target ty'
  · obtain ⟨m, ty', hh⟩ := hex
    have hne := hc.named _ _ _ hh
    by_cases hm : n = m
    · subst hm
      have hr := fun or => route_here (W := W) (ty := ty) hp hne hh or
      constructor
      · intro ht
        left
        cases ht with
        | stop _ h => rw [hr] at h; cases h; exact ⟨ty', hh, rfl, rfl⟩
        | hop _ h => rw [hr] at h; cases h
        | lost _ h => rw [hr] at h; cases h
      · rintro (⟨_, _, rfl, rfl⟩ | ⟨m, _, hm, h2, _⟩ | ⟨h2, _⟩)
        · exact .stop hv (by rw [hr]; rfl)
        · exact absurd (hc.unique _ _ _ _ _ h2 hh).1 hm
        · exact absurd hh (h2 _ _)
    · have hr := fun or => route_other hc (ty := ty) hp hh hm or
      have hl : C.listen (address C m ty' target).ip (address C m ty' target).port = some m := hc.listen m
      have hr' := fun or => route_here (W := W) (ty := ty) hp hne hh or
      constructor
      · intro ht
        right; left
        cases ht with
        | stop _ h => rw [hr] at h; cases h
        | hop _ h h2 h3 =>
          rw [hr] at h; cases h
          rw [hl] at h2; cases h2
          cases h3 with
          | stop _ h => rw [hr'] at h; cases h; exact ⟨m, ty', Ne.symm hm, hh, rfl, rfl⟩
          | hop _ h => rw [hr'] at h; cases h
          | lost _ h => rw [hr'] at h; cases h
        | lost _ h h2 => rw [hr] at h; cases h; rw [hl] at h2; cases h2
      · rintro (⟨_, h2, _⟩ | ⟨m', ty2, hm', h2, rfl, rfl⟩ | ⟨h2, _⟩)
        · exact absurd (hc.unique _ _ _ _ _ h2 hh).1 hm
        · obtain ⟨rfl, -⟩ := hc.unique _ _ _ _ _ h2 hh
          obtain ⟨or1, hv1⟩ := exists_oracle hc m' ty
          exact .hop hv (hr _) hl (.stop hv1 (by rw [hr']; rfl))
        · exact absurd hh (h2 _ _)
  · have hno : ∀ m ty', ¬ Hosts C m target ty' := fun m ty' h => hex ⟨m, ty', h⟩
    have hr : ∀ or, (route C W n target ty or).outcome n = some (.failed n) := by
      intro or
      by_cases hne : target = ""
      · subst hne; exact (C23_empty_target C W n ty or).1
      · rw [route_unknown hc hp hne hno]; rfl
    constructor
    · intro ht
      right; right
      cases ht with
      | stop _ h => rw [hr] at h; cases h; exact ⟨hno, rfl, rfl⟩
      | hop _ h => have := hr ‹_›; rw [h] at this; cases this
      | lost _ h => have := hr ‹_›; rw [h] at this; cases this
    · rintro (⟨_, h2, _⟩ | ⟨m', ty2, hm', h2, _⟩ | ⟨_, rfl, rfl⟩)
      · exact absurd h2 (hno _ _)
      · exact absurd h2 (hno _ _)
      · exact .stop hv (hr _)

/-- C24: and neither the cluster's address book nor anything else is changed on the way. -/
theorem C24_no_effect_partial {C : Cluster} {W : World} (hc : Consistent C W) (target ty : String) (hp : Plain target)
    (n : Nat) (o : Oracle) : effect C W n (route C W n target ty o) = W := by
  by_cases hex : ∃ m ty', Hosts C m target ty'
  · obtain ⟨m, ty', hh⟩ := hex
    by_cases hm : n = m
    · subst hm; rw [route_here hp (hc.named _ _ _ hh) hh]; rfl
    · rw [route_other hc hp hh hm]; rfl
  · by_cases hne : target = ""
    · subst hne; exact (C23_empty_target C W n ty o).2
    · rw [route_unknown hc hp hne (fun m ty' h => hex ⟨m, ty', h⟩)]; rfl

/-- C24 for the address books that the nodes can build: after any legal history of the address book, in a
cluster that hosts exactly what is registered. -/
theorem C24_by_id_history_partial {C : Cluster} {own : String → Nat} {ops : List AddressBook.Op}
    (hd : DistinctNodes C.cfg) (hl : AddressBook.Spec.LegalOps own ops)
    (hs : AddressBook.Spec.stopped ops = []) (hlis : ∀ n, C.listen (C.cfg n).ip (C.cfg n).port = some n)
    (hmirror : ∀ n id ty, Hosts C n id ty ↔
      ∃ r ∈ AddressBook.Spec.dir ops, r.node = n ∧ r.id = id ∧ r.ty = ty)
    (target ty : String) (hp : Plain target) (n k : Nat) (o : Outcome) :
    Travel C (runOps C.cfg ops) target ty n k o ↔
      (∃ r ∈ AddressBook.Spec.dir ops, r.id = target ∧ r.node = n ∧ k = 0 ∧ o = .delivered n target) ∨
      (∃ r ∈ AddressBook.Spec.dir ops, r.id = target ∧ r.node ≠ n ∧ k = 1 ∧ o = .delivered r.node target) ∨
      ((∀ r ∈ AddressBook.Spec.dir ops, r.id ≠ target) ∧ k = 0 ∧ o = .failed n) := by
  rw [C24_by_id_partial (consistent_of_ops hd hl hs hlis hmirror) target ty hp]
  constructor
  · rintro (⟨ty', h, rfl, rfl⟩ | ⟨m, ty', hm, h, rfl, rfl⟩ | ⟨h, rfl, rfl⟩)
    · obtain ⟨r, hr, h1, h2, -⟩ := (hmirror _ _ _).1 h
      exact .inl ⟨r, hr, h2, h1, rfl, rfl⟩
    · obtain ⟨r, hr, rfl, h2, -⟩ := (hmirror _ _ _).1 h
      exact .inr (.inl ⟨r, hr, h2, hm, rfl, rfl⟩)
    · refine .inr (.inr ⟨fun r hr he => h r.node r.ty ((hmirror _ _ _).2 ⟨r, hr, rfl, he, rfl⟩), rfl, rfl⟩)
  · rintro (⟨r, hr, h1, h2, rfl, rfl⟩ | ⟨r, hr, h1, h2, rfl, rfl⟩ | ⟨h, rfl, rfl⟩)
    · exact .inl ⟨r.ty, (hmirror _ _ _).2 ⟨r, hr, h2, h1, rfl⟩, rfl, rfl⟩
    · exact .inr (.inl ⟨r.node, r.ty, h2, (hmirror _ _ _).2 ⟨r, hr, rfl, h1, rfl⟩, rfl, rfl⟩)
    · refine .inr (.inr ⟨fun m ty' hh => ?_, rfl, rfl⟩)
      obtain ⟨r, hr, -, h2, -⟩ := (hmirror _ _ _).1 hh
      exact h r hr h2

example : Travel exC (runOps exCfg exOps) "z" "t" 0 1 (.delivered 1 "z") :=
  (C24_by_id_partial exC_consistent "z" "t" (by unfold Plain; decide) 0 1 _).2
    (.inr (.inl ⟨1, "t", by decide, by simp [Hosts, exC, exNode], rfl, rfl⟩))
example : Travel exC (runOps exCfg exOps) "z" "t" 1 0 (.delivered 1 "z") :=
  (C24_by_id_partial exC_consistent "z" "t" (by unfold Plain; decide) 1 0 _).2
    (.inl ⟨"t", by simp [Hosts, exC, exNode], rfl, rfl⟩)
example (k : Nat) (o : Outcome) (h : Travel exC (runOps exCfg exOps) "z" "t" 0 k o) :
    o = .delivered 1 "z" := by
  rcases (C24_by_id_partial exC_consistent "z" "t" (by unfold Plain; decide) 0 k o).1 h with
    ⟨_, h1, _⟩ | ⟨m, ty', _, h1, _, rfl⟩ | ⟨h1, _⟩
  · simp [Hosts, exC, exNode] at h1
  · match m, h1 with
    | 0, h1 => simp [Hosts, exC, exNode] at h1
    | 1, _ => rfl
    | m + 2, h1 => simp [Hosts, exC, exNode] at h1
  · exact absurd (by simp [Hosts, exC, exNode]) (h1 1 "t")

/-! ### C25 -/

/-- The three ways in which a symbol is resolved. -/
theorem route_symbol {C : Cluster} {W : World} (hc : Consistent C W) {n : Nat} {ty target : String} {o : Oracle}
    (ho : o.Valid C W n ty) (ht : target = "?" ∨ target = "~") :
    (∃ id, route C W n target ty o = .here id ∧ Hosts C n id ty) ∨
    (∃ e, route C W n target ty o = .unknown e) ∨
    (∃ m id, n ≠ m ∧ route C W n target ty o = .forward (address C m ty id) ∧ Hosts C m id ty) := by
  have hnone : C.has n "" = false := by
    cases h : C.has n "" with
    | false => rfl
    | true => obtain ⟨ty', h'⟩ := has_iff.1 h; exact absurd rfl (hc.named _ _ _ h')
  rcases ht with rfl | rfl
  · cases hw : wildcard (totalWeight W) o.sample with
    | error e => right; left; exact ⟨e, by simp [route, hw, Addr.zero, hnone]⟩
    | ok a =>
      obtain ⟨m, id, hh, rfl⟩ := wildcard_hosts hc ho hw
      by_cases hm : n = m
      · subst hm
        have := has_iff.2 ⟨ty, hh⟩
        left; exact ⟨id, by simp [route, hw, address, this], hh⟩
      · right; right
        refine ⟨m, id, hm, ?_, hh⟩
        have hn : C.has n id = false := by
          cases h : C.has n id with
          | false => rfl
          | true => obtain ⟨ty', h'⟩ := has_iff.1 h; exact absurd (hc.unique _ _ _ _ _ h' hh).1 hm
        have h2 := resolve_other hc hm ty ty id
        simp only [route, hw]
        rw [if_neg (by decide), if_pos trivial]
        show (if C.has n id = true then _ else _) = _
        rw [hn, if_neg (by decide)]
        exact h2
  · cases hf : o.order.find? (·.2 = ty) with
    | some p =>
      obtain ⟨id, ty'⟩ := p
      have h1 := List.find?_some hf
      simp only [decide_eq_true_eq] at h1
      subst h1
      left
      exact ⟨id, by simp [route, hf], ho.2.mem_iff.1 (List.mem_of_find?_eq_some hf)⟩
    | none =>
      cases hw : wildcard (totalWeight W) o.sample with
      | error e => right; left; exact ⟨e, by simp [route, hf, hw]⟩
      | ok a =>
        obtain ⟨m, id, hh, rfl⟩ := wildcard_hosts hc ho hw
        right; right
        by_cases hm : n = m
        · subst hm
          exfalso
          rw [List.find?_eq_none] at hf
          exact hf (id, ty) (ho.2.mem_iff.2 hh) (by simp)
        · refine ⟨m, id, hm, ?_, hh⟩
          have h2 := resolve_other hc hm ty ty id
          simp only [route, hf, hw]
          rw [if_neg (by decide), if_neg (by decide), if_pos trivial]
          exact h2

/-- C25: a call with `?` or `~` that delivers does so to an actor of the requested type, after any number of
hops. Otherwise it is an error: no panic, no removed record, no address at which nobody listens. -/
theorem C25_symbol_type {C : Cluster} {W : World} (hc : Consistent C W) {target ty : String}
    (ht : target = "?" ∨ target = "~") {n k : Nat} {o : Outcome} (h : Travel C W target ty n k o) :
    (∃ m id, o = .delivered m id ∧ Hosts C m id ty) ∨ ∃ m, o = .failed m := by
  induction h with
  | @stop n or o ho hr =>
    rcases route_symbol hc ho ht with ⟨id, h1, h2⟩ | ⟨e, h1⟩ | ⟨m, id, -, h1, h2⟩
    · rw [h1] at hr; cases hr; exact .inl ⟨n, id, rfl, h2⟩
    · rw [h1] at hr; cases hr; exact .inr ⟨n, rfl⟩
    · rw [h1] at hr; cases hr
  | hop _ _ _ _ ih => exact ih
  | @lost n or a ho hr hl =>
    rcases route_symbol hc ho ht with ⟨id, h1, h2⟩ | ⟨e, h1⟩ | ⟨m, id, -, h1, h2⟩
    · rw [h1] at hr; cases hr
    · rw [h1] at hr; cases hr
    · rw [h1] at hr; cases hr
      have := hc.listen m
      rw [show C.listen (address C m ty id).ip (address C m ty id).port = some m from this] at hl
      cases hl

/-- C25: `~` needs at most one hop, and fails only where it started. -/
theorem C25_local_first_hops {C : Cluster} {W : World} (hc : Consistent C W) {ty : String} {n k : Nat}
    {o : Outcome} (h : Travel C W "~" ty n k o) :
    (k = 0 ∧ ((∃ id, o = .delivered n id ∧ Hosts C n id ty) ∨ (o = .failed n ∧ ∀ id, ¬ Hosts C n id ty))) ∨
    (k = 1 ∧ (∀ id, ¬ Hosts C n id ty) ∧ ∃ m id, m ≠ n ∧ o = .delivered m id ∧ Hosts C m id ty) := by
  have hloc : ∀ {n or id}, or.Valid C W n ty → Hosts C n id ty →
      ∃ id', route C W n "~" ty or = .here id' ∧ Hosts C n id' ty := by
    intro n or id ho hh
    obtain ⟨id', h1, h2, -⟩ := C23_local_first C n ty id hh W or ho.2
    refine ⟨id', ?_, h1⟩
    cases hd : route C W n "~" ty or <;> rw [hd] at h2 <;> cases h2
    rfl
  cases h with
  | stop ho hr =>
    left
    rcases route_symbol hc ho (.inr rfl) with ⟨id, h1, h2⟩ | ⟨e, h1⟩ | ⟨m, id, -, h1, h2⟩
    · rw [h1] at hr; cases hr; exact ⟨rfl, .inl ⟨id, rfl, h2⟩⟩
    · rw [h1] at hr; cases hr
      refine ⟨rfl, .inr ⟨rfl, fun id hid => ?_⟩⟩
      obtain ⟨id', h3, -⟩ := hloc ho hid
      rw [h1] at h3; cases h3
    · rw [h1] at hr; cases hr
  | hop ho hr hl ht =>
    right
    rcases route_symbol hc ho (.inr rfl) with ⟨id, h1, h2⟩ | ⟨e, h1⟩ | ⟨m, id, hm, h1, h2⟩
    · rw [h1] at hr; cases hr
    · rw [h1] at hr; cases hr
    · rw [h1] at hr; cases hr
      rw [show C.listen (address C m ty id).ip (address C m ty id).port = some m from hc.listen m] at hl
      have hl' := Option.some.inj hl
      subst hl'
      have hnone : ∀ id, ¬ Hosts C n id ty := by
        intro id hid
        obtain ⟨id', h3, -⟩ := hloc ho hid
        rw [h1] at h3; cases h3
      cases ht with
      | stop ho' hr' =>
        obtain ⟨id', h3, h4⟩ := hloc ho' h2
        rw [h3] at hr'; cases hr'
        exact ⟨rfl, hnone, m, id', Ne.symm hm, rfl, h4⟩
      | hop ho' hr' => obtain ⟨id', h3, h4⟩ := hloc ho' h2; rw [h3] at hr'; cases hr'
      | lost ho' hr' => obtain ⟨id', h3, h4⟩ := hloc ho' h2; rw [h3] at hr'; cases hr'
  | lost ho hr hl =>
    exfalso
    rcases route_symbol hc ho (.inr rfl) with ⟨id, h1, h2⟩ | ⟨e, h1⟩ | ⟨m, id, hm, h1, h2⟩
    · rw [h1] at hr; cases hr
    · rw [h1] at hr; cases hr
    · rw [h1] at hr; cases hr
      rw [show C.listen (address C m ty id).ip (address C m ty id).port = some m from hc.listen m] at hl
      cases hl

/-- The history in which both actors weigh the same. -/
def eqOps : List AddressBook.Op := [.register 0 "t" "x" 3, .register 1 "t" "z" 3]

theorem eqOps_legal : AddressBook.Spec.LegalOps exOwn eqOps := by
  refine legalOps_concat (ops := [_]) (legalOps_concat (ops := []) legalOps_nil ?_) ?_ <;>
  simp [AddressBook.Spec.Legal, AddressBook.Spec.stopped, AddressBook.Spec.opNode, exOwn]

theorem eq_consistent : Consistent exC (runOps exCfg eqOps) := by
  refine consistent_of_ops (C := exC) (own := exOwn) exCfg_distinct eqOps_legal (by decide) ?_ ?_
  · intro n; simp [exC, exCfg]
  · intro n id ty
    have hdir : AddressBook.Spec.dir eqOps = [⟨"x", "t", 0, 3⟩, ⟨"z", "t", 1, 3⟩] := by decide +kernel
    rw [hdir]
    match n with
    | 0 => simp [Hosts, exC, exNode, eq_comm]
    | 1 => simp [Hosts, exC, exNode, eq_comm]
    | n + 2 => simp [Hosts, exC, exNode]

/-- A limit of C25: with `?` there is no bound on the number of hops. Every node asks the address book again,
and two nodes with the same load may go on sending the message to each other, even though both host an
actor of the type. -/
theorem C25_wildcard_hops_unbounded (k : Nat) :
    Consistent exC (runOps exCfg eqOps) ∧
    Travel exC (runOps exCfg eqOps) "?" "t" 0 (2 * k) (.delivered 0 "x") := by
  refine ⟨eq_consistent, ?_⟩
  have ha : (runOps exCfg eqOps).redis.tys "t" =
    [⟨"x", "t", "a", "10.0.0.1", 0⟩, ⟨"z", "t", "aa", "10.0.0.1", 1⟩] := by decide +kernel
  have v0 : ∀ n, n = 0 ∨ n = 1 → (⟨[⟨"x", "t", "a", "10.0.0.1", 0⟩, ⟨"z", "t", "aa", "10.0.0.1", 1⟩],
      (exC.node n).actors⟩ : Oracle).Valid exC (runOps exCfg eqOps) n "t" := by
    intro n _
    refine ⟨?_, List.Perm.refl _⟩
    rw [ha]
    exact ⟨by simp, by simp, by simp⟩
  have v1 : ∀ n, n = 0 ∨ n = 1 → (⟨[⟨"z", "t", "aa", "10.0.0.1", 1⟩, ⟨"x", "t", "a", "10.0.0.1", 0⟩],
      (exC.node n).actors⟩ : Oracle).Valid exC (runOps exCfg eqOps) n "t" := by
    intro n _
    refine ⟨?_, List.Perm.refl _⟩
    rw [ha]
    exact ⟨by simp, by simp, by simp⟩
  induction k with
  | zero => exact .stop (v0 0 (.inl rfl)) (by decide +kernel)
  | succ k ih =>
    refine .hop (m := 1) (a := ⟨"z", "t", "aa", "10.0.0.1", 1⟩) (v1 0 (.inl rfl)) (by decide +kernel)
      (by decide) ?_
    exact .hop (m := 0) (a := ⟨"x", "t", "a", "10.0.0.1", 0⟩) (v0 1 (.inr rfl)) (by decide +kernel)
      (by decide) ih

example : (∃ m id, (.delivered 0 "x" : Outcome) = .delivered m id ∧ Hosts exC m id "t") ∨
    ∃ m, (.delivered 0 "x" : Outcome) = .failed m :=
  C25_symbol_type eq_consistent (.inl rfl) (C25_wildcard_hops_unbounded 3).2

/-! ### C26 -/

/-- What `Unregister` removes: the record of the id and its copy in the set. -/
theorem removed_unregister {cfg : Nat → NodeCfg} {W : World} {n : Nat} {id : String} {w : Int} {a : Addr}
    (h : Removed W (unregister cfg none W n id w).1 a) : W.redis.ids id = some a := by
  unfold unregister at h
  split at h
  · rcases h with ⟨_, h1, h2⟩ | ⟨_, h1, h2⟩ <;> contradiction
  · cases hid : W.redis.ids id with
    | none => simp only [hid] at h; rcases h with ⟨_, h1, h2⟩ | ⟨_, h1, h2⟩ <;> contradiction
    | some b =>
      simp only [hid, unregisterCmds, Redis.pipe, List.foldl_cons, List.foldl_nil, Redis.run] at h
      rcases h with ⟨id', h1, h2⟩ | ⟨ty, h1, h2⟩
      · by_cases he : id' = id
        · subst he; rw [h1] at hid; cases hid; rfl
        · simp [AddressBook.set, he, h1] at h2
      · by_cases ht : ty = b.actorTy
        · subst ht
          simp only [AddressBook.set, if_pos, List.mem_filter, not_and, decide_eq_true_eq] at h2
          have := h2 h1
          have hab : a = b := by
            by_cases h : a = b
            · exact h
            · exact absurd h this
          rw [hab]
        · simp [AddressBook.set, ht, h1] at h2

/-- C26, the part that holds: if the address book is coherent as far as this node relies on it
(`Spec.Coherent`), what `Call` and `Send` remove are records of this node for actors that it does not host.
Missing: address books that are not, see the refutations. -/
theorem C26_cleanup_partial {C : Cluster} {W : World} {n : Nat} (hc : Coherent C W n) (target ty : String)
    (o : Oracle) (ho : o.Valid C W n ty) (a : Addr)
    (hr : Removed W (effect C W n (route C W n target ty o)) a) : DeadRecord C n a := by
  cases hd : route C W n target ty o with
  | empty => rw [hd] at hr; rcases hr with ⟨_, h1, h2⟩ | ⟨_, h1, h2⟩ <;> contradiction
  | here => rw [hd] at hr; rcases hr with ⟨_, h1, h2⟩ | ⟨_, h1, h2⟩ <;> contradiction
  | unknown => rw [hd] at hr; rcases hr with ⟨_, h1, h2⟩ | ⟨_, h1, h2⟩ <;> contradiction
  | crash => rw [hd] at hr; rcases hr with ⟨_, h1, h2⟩ | ⟨_, h1, h2⟩ <;> contradiction
  | forward => rw [hd] at hr; rcases hr with ⟨_, h1, h2⟩ | ⟨_, h1, h2⟩ <;> contradiction
  | stale id w =>
    rw [hd] at hr
    have hid := removed_unregister hr
    have haid := hc.ids _ _ hid
    have hres : ∀ info, resolve C n ty info = .stale id w →
        info.actorId = id ∧ info.ip = (C.cfg n).ip ∧ info.port = (C.cfg n).port := by
      intro info h
      unfold resolve at h
      split at h
      · rename_i h2
        split at h
        · cases h; exact ⟨rfl, h2⟩
        · cases h
      · cases h
    have hset : ∀ info, wildcard (totalWeight W) o.sample = .ok info → resolve C n ty info = .stale id w →
        a.node = (C.cfg n).nodeID ∧ a.actorTy = ty := by
      intro info hw h
      obtain ⟨h1, h2, h3⟩ := hres _ h
      obtain ⟨h4, h5⟩ := hc.sets _ _ (ho.1.2.1 _ (wildcard_mem hw))
      rw [h1, hid] at h4
      cases h4
      exact ⟨hc.addr _ _ hid h2 h3, h5⟩
    unfold route at hd
    split at hd
    · cases hd
    split at hd
    · -- `?`
      split at hd
      · rename_i info hw
        split at hd
        · cases hd
        · rename_i hn
          refine ⟨(hset _ hw hd).1, fun ty' hh => hn ?_⟩
          rw [haid, ← (hres _ hd).1] at hh
          exact has_iff.2 ⟨ty', hh⟩
      · split at hd <;> cases hd
    split at hd
    · -- `~`
      split at hd
      · cases hd
      · rename_i hf
        split at hd
        · rename_i info hw
          obtain ⟨h1, h2⟩ := hset _ hw hd
          refine ⟨h1, fun ty' hh => ?_⟩
          rw [haid] at hh
          have := hc.types _ _ _ hid h1 hh
          rw [List.find?_eq_none] at hf
          exact hf (id, ty') (ho.2.mem_iff.2 hh) (by simp [this, h2])
        · cases hd
    · -- an id
      split at hd
      · cases hd
      · rename_i hn
        split at hd
        · rename_i info hg
          obtain ⟨h1, h2, h3⟩ := hres _ hd
          unfold getByID at hg
          split at hg
          · cases hg
          have ht : id = target := by
            split at hg
            · cases hg; exact h1.symm
            · split at hg
              · cases hg
              · cases hg; rename_i h; rw [← h1]; exact hc.ids _ _ h
          subst ht
          refine ⟨?_, fun ty' hh => hn (by rw [haid] at hh; exact has_iff.2 ⟨ty', hh⟩)⟩
          split at hg
          · rename_i hm; exact hc.own _ _ hm hid
          · rw [hid] at hg; cases hg
            exact hc.addr _ _ hid h2 h3
        · cases hd

/-- C26 for the address books that legal histories build, on a node that has not stopped and whose address
is not used by another node. Which actors the nodes are running does not matter, except that they have the
type they were registered with. -/
theorem C26_cleanup_history_partial {C : Cluster} {own : String → Nat} {ops : List AddressBook.Op}
    (hd : DistinctNodes C.cfg) (hl : AddressBook.Spec.LegalOps own ops) {n : Nat}
    (hs : n ∉ AddressBook.Spec.stopped ops)
    (haddr : ∀ m, (C.cfg m).ip = (C.cfg n).ip → (C.cfg m).port = (C.cfg n).port → m = n)
    (hty : ∀ r ∈ AddressBook.Spec.dir ops, ∀ ty, r.node = n → Hosts C n r.id ty → ty = r.ty)
    (target ty : String) (o : Oracle) (ho : o.Valid C (runOps C.cfg ops) n ty) (a : Addr)
    (hr : Removed (runOps C.cfg ops) (effect C (runOps C.cfg ops) n (route C (runOps C.cfg ops) n target ty o)) a) :
    DeadRecord C n a :=
  C26_cleanup_partial (coherent_of_ops hd hl hs haddr hty) target ty o ho a hr

/-- Two nodes on one machine without acceptors (port 0); only node 1 hosts "x". -/
def portC : Cluster :=
  ⟨fun n => ⟨String.ofList (List.replicate (n + 1) 'a'), "10.0.0.1", 0⟩,
    fun n => ⟨if n = 1 then [("x", "t")] else [], fun _ => some 1⟩, fun _ _ => none⟩

/-- C26 is violated by nodes with the same ip and port, which is the case for all nodes of a machine that
have no acceptor: node 0 takes the record of node 1 for its own, and removes the record of a running actor. -/
theorem C26_same_address_refuted : ∃ (W : World) (o : Oracle) (a : Addr),
    W = runOps portC.cfg [.register 1 "t" "x" 1] ∧ o.Valid portC W 0 "t" ∧
    Removed W (effect portC W 0 (route portC W 0 "x" "t" o)) a ∧
    a = address portC 1 "t" "x" ∧ Hosts portC 1 "x" "t" ∧ ¬ DeadRecord portC 0 a := by
  refine ⟨_, ⟨[address portC 1 "t" "x"], []⟩, address portC 1 "t" "x", rfl,
    ⟨⟨by simp, ?_, by decide +kernel⟩, by simp [portC]⟩, .inl ⟨"x", by decide +kernel, by decide +kernel⟩, rfl,
    by simp [Hosts, portC], ?_⟩
  · intro a ha
    rw [List.mem_singleton.1 ha]
    decide +kernel
  · rintro ⟨h, -⟩
    revert h
    decide +kernel

/-- A node that stopped without clearing its records and starts again: its `IDMap` is empty. -/
def restart (W : World) (n : Nat) : World := { W with idmap := fun m id => if m = n then false else W.idmap m id }

/-- Node 1 hosts "x", node 0 nothing. -/
def moveC : Cluster :=
  ⟨exCfg, fun n => ⟨if n = 1 then [("x", "t")] else [], fun _ => some 1⟩,
    fun ip p => if ip = "10.0.0.1" ∧ 0 ≤ p then some p.toNat else none⟩

/-- Node 0 registered "x" and crashed; "x" was then registered by node 1; node 0 is back. -/
def moveW : World :=
  (register exCfg none (restart (register exCfg none World.init 0 "t" "x" 1).1 0) 1 "t" "x" 1).1

/-- C26 is violated after a crash: the set still has the old address of an actor that has moved, and a `?`
call on the old node removes the record of the running actor on its new node. -/
theorem C26_moved_actor_refuted : ∃ (o : Oracle) (a : Addr), o.Valid moveC moveW 0 "t" ∧
    Removed moveW (effect moveC moveW 0 (route moveC moveW 0 "?" "t" o)) a ∧
    a = address moveC 1 "t" "x" ∧ Hosts moveC 1 "x" "t" ∧ ¬ DeadRecord moveC 0 a := by
  refine ⟨⟨[address moveC 0 "t" "x", address moveC 1 "t" "x"], []⟩, address moveC 1 "t" "x",
    ⟨⟨by decide +kernel, ?_, by decide +kernel⟩, by simp [moveC]⟩,
    .inl ⟨"x", by decide +kernel, by decide +kernel⟩, rfl, by simp [Hosts, moveC], ?_⟩
  · intro a ha
    have : moveW.redis.tys "t" = [address moveC 0 "t" "x", address moveC 1 "t" "x"] := by decide +kernel
    rw [this]; exact ha
  · rintro ⟨h, -⟩
    revert h
    decide +kernel

/-- C26 is violated while an actor is being constructed: node 0 has published the record of "x" (it is in
its `IDMap`) but not yet put the actor into its map, and node 1 has registered "x" too. A call by id on
node 0 removes the record of node 1. -/
theorem C26_idmap_refuted : ∃ (W : World) (o : Oracle) (a : Addr),
    W = runOps exCfg [.register 0 "t" "x" 1, .register 1 "t" "x" 1] ∧ o.Valid moveC W 0 "t" ∧
    Removed W (effect moveC W 0 (route moveC W 0 "x" "t" o)) a ∧
    a = address moveC 1 "t" "x" ∧ Hosts moveC 1 "x" "t" ∧ ¬ DeadRecord moveC 0 a := by
  refine ⟨_, ⟨[address moveC 0 "t" "x", address moveC 1 "t" "x"], []⟩, address moveC 1 "t" "x", rfl,
    ⟨⟨by decide +kernel, ?_, by decide +kernel⟩, by simp [moveC]⟩,
    .inl ⟨"x", by decide +kernel, by decide +kernel⟩, rfl, by simp [Hosts, moveC], ?_⟩
  · intro a ha
    have : (runOps exCfg [.register 0 "t" "x" 1, .register 1 "t" "x" 1]).redis.tys "t" =
      [address moveC 0 "t" "x", address moveC 1 "t" "x"] := by decide +kernel
    rw [this]; exact ha
  · rintro ⟨h, -⟩
    revert h
    decide +kernel

/-- A cleanup as it should be: node 0 of the example lost its actor "x", and a call finds it out. -/
def lostC : Cluster :=
  { exC with node := fun n => if n = 0 then ⟨[], fun ty => if ty = "t" then some 3 else none⟩ else exNode n }

example : Coherent lostC (runOps exCfg exOps) 0 :=
  coherent_of_ops (C := lostC) (own := exOwn) exCfg_distinct exOps_legal (by decide)
    (fun m h1 h2 => by simpa [lostC, exC, exCfg] using h2) (fun r _ ty _ h => by simp [Hosts, lostC] at h)
example : Removed (runOps exCfg exOps)
    (effect lostC (runOps exCfg exOps) 0 (route lostC (runOps exCfg exOps) 0 "x" "t" ⟨[], []⟩))
    (address lostC 0 "t" "x") := .inl ⟨"x", by decide +kernel, by decide +kernel⟩

/-! ### C27 -/

/-- What a call that is forwarded to node `m` returns. -/
theorem answer_forward {C : Cluster} {W : World} {loc : LocalRet} {target ty : String} {n : Nat} {a : Addr}
    (hfw : ∀ o : Oracle, o.Valid C W n ty → route C W n target ty o = .forward a) {r : Ret}
    (h : Answer C W loc target ty n r) :
    r = .error ∨ ∃ m r', C.listen a.ip a.port = some m ∧ Answer C W loc target ty m r' ∧
      r = handleRemoteCall (some (routing r')) := by
  cases h with
  | here ho h => rw [hfw _ ho] at h; cases h
  | error ho h => rw [hfw _ ho] at h; cases h
  | panic ho h => rw [hfw _ ho] at h; cases h
  | hop ho h hl hm => rw [hfw _ ho] at h; cases h; exact .inr ⟨_, _, hl, hm, rfl⟩
  | lost ho h => exact .inl rfl

/-- C27, the part that holds: a call that is forwarded returns an error if nobody listens at the address, or
if the remote node cannot but panic. (Any failure of the transport is an error too: it is the constructor
`Answer.lost`.) Missing: orderly errors of the remote node, which the acceptor drops, see
`C27_swallowed_refuted`. -/
theorem C27_remote_failure_partial {C : Cluster} {W : World} {loc : LocalRet} {target ty : String} {n : Nat}
    {a : Addr} (hfw : ∀ o : Oracle, o.Valid C W n ty → route C W n target ty o = .forward a)
    (hbad : ∀ m, C.listen a.ip a.port = some m → ∀ r, Answer C W loc target ty m r → r = .panic)
    {r : Ret} (h : Answer C W loc target ty n r) : r = .error := by
  rcases answer_forward hfw h with h | ⟨m, r', h1, h2, rfl⟩
  · exact h
  · rw [hbad m h1 r' h2]; rfl

/-- C27 is violated by every orderly failure at the remote node: in a consistent cluster, the actor "z" of
node 1 refuses every call (it is closed, say) and `Call` returns an error on node 1. On node 0 the same call
returns nil. -/
theorem C27_swallowed_refuted : ∃ loc : LocalRet, Consistent exC (runOps exCfg exOps) ∧
    (∀ r, Answer exC (runOps exCfg exOps) loc "z" "t" 1 r → r = .error) ∧
    Answer exC (runOps exCfg exOps) loc "z" "t" 0 .nil := by
  have hp : Plain "z" := by unfold Plain; decide
  have hz : Hosts exC 1 "z" "t" := by simp [Hosts, exC, exNode]
  have h1 := fun o => route_here (C := exC) (W := runOps exCfg exOps) (ty := "t") hp (by decide) hz o
  obtain ⟨o1, hv1⟩ := exists_oracle exC_consistent 1 "t"
  obtain ⟨o0, hv0⟩ := exists_oracle exC_consistent 0 "t"
  refine ⟨fun _ _ => .error, exC_consistent, ?_, ?_⟩
  · intro r h
    cases h with
    | here => rfl
    | error => rfl
    | panic _ h => rw [h1] at h; cases h
    | hop _ h => rw [h1] at h; cases h
    | lost _ h => rw [h1] at h; cases h
  · exact .hop hv0 (route_other exC_consistent hp hz (by decide) o0) (exC_consistent.listen 1)
      (.here hv1 (h1 o1))

/-- The same in general: a forwarded call whose reply arrives returns nil unless the remote node panicked. -/
theorem C27_swallowed_always {C : Cluster} {W : World} {loc : LocalRet} {target ty : String} {n m : Nat}
    {a : Addr} {o : Oracle} (ho : o.Valid C W n ty) (hf : route C W n target ty o = .forward a)
    (hl : C.listen a.ip a.port = some m) {r : Ret} (hm : Answer C W loc target ty m r) (hr : r ≠ .panic) :
    Answer C W loc target ty n .nil := by
  have := Answer.hop ho hf hl hm
  cases r with
  | nil => exact this
  | error => exact this
  | panic => exact absurd rfl hr

/-- Node 1 has stopped without clearing its record; nobody listens there. -/
def downC : Cluster := { exC with listen := fun _ _ => none }

example (r : Ret) (h : Answer downC (runOps exCfg exOps) (fun _ _ => .nil) "z" "t" 0 r) : r = .error :=
  C27_remote_failure_partial (a := ⟨"z", "t", "aa", "10.0.0.1", 1⟩) (fun o _ => by
    have := route_other exC_consistent (n := 0) (m := 1) (target := "z") (ty := "t") (ty' := "t")
      (by unfold Plain; decide) (by simp [Hosts, exC, exNode]) (by decide) o
    exact this) (fun m hm => by cases hm) h

/-! ### C28 -/

/-- C28 is violated: `*` and `#` are taken for actor ids. In a consistent cluster that has no actor of that
name, a call or send with one of them is an error and reaches nobody, however many actors of the type
there are. -/
theorem C28_not_implemented {C : Cluster} {W : World} (hc : Consistent C W) (target : String)
    (ht : target = "*" ∨ target = "#") (hno : ∀ m ty', ¬ Hosts C m target ty') (ty : String) (n k : Nat)
    (o : Outcome) (h : Travel C W target ty n k o) : k = 0 ∧ o = .failed n := by
  have hp : Plain target := by rcases ht with rfl | rfl <;> (unfold Plain; decide)
  rcases (C24_by_id_partial hc target ty hp n k o).1 h with ⟨ty', h1, _⟩ | ⟨m, ty', _, h1, _⟩ | ⟨_, h1, h2⟩
  · exact absurd h1 (hno _ _)
  · exact absurd h1 (hno _ _)
  · exact ⟨h1, h2⟩

/-- C28, the claim for `*`: every actor of the type is reached. -/
def Broadcast (C : Cluster) (W : World) (target ty : String) (n : Nat) : Prop :=
  ∀ m id, Hosts C m id ty → ∃ k, Travel C W target ty n k (.delivered m id)

/-- C28, the claim for `#`: some actor of the type is reached, if there is one. -/
def Group (C : Cluster) (W : World) (target ty : String) (n : Nat) : Prop :=
  (∃ m id, Hosts C m id ty) → ∃ m id k, Hosts C m id ty ∧ Travel C W target ty n k (.delivered m id)

/-- C28 is violated: in the example cluster, neither holds, on any node. -/
theorem C28_refuted : Consistent exC (runOps exCfg exOps) ∧ ∀ n,
    ¬ Broadcast exC (runOps exCfg exOps) "*" "t" n ∧ ¬ Group exC (runOps exCfg exOps) "#" "t" n := by
  have hx : Hosts exC 0 "x" "t" := by simp [Hosts, exC, exNode]
  have hno : ∀ s, s = "*" ∨ s = "#" → ∀ m ty', ¬ Hosts exC m s ty' := by
    rintro s (rfl | rfl) m ty' h <;>
    match m, h with
    | 0, h => simp [Hosts, exC, exNode] at h
    | 1, h => simp [Hosts, exC, exNode] at h
    | m + 2, h => simp [Hosts, exC, exNode] at h
  refine ⟨exC_consistent, fun n => ⟨fun h => ?_, fun h => ?_⟩⟩
  · obtain ⟨k, hk⟩ := h 0 "x" hx
    cases (C28_not_implemented exC_consistent "*" (.inl rfl) (hno _ (.inl rfl)) _ _ _ _ hk).2
  · obtain ⟨m, id, k, -, hk⟩ := h ⟨0, "x", hx⟩
    cases (C28_not_implemented exC_consistent "#" (.inr rfl) (hno _ (.inr rfl)) _ _ _ _ hk).2

end Braid.System
