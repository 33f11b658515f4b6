import Verif.System.Props

/-
C26: exactly which record `Call` and `Send` remove, in every state of the cluster and the address book.
-/
namespace Braid.System
open AddressBook Spec

/-- `Call` on node `n` found no local actor for the target, and the lookup gave this address. -/
def Found (C : Cluster) (W : World) (n : Nat) (target ty : String) (o : Oracle) (info : Addr) : Prop :=
  (target = "?" ∧ wildcard (totalWeight W) o.sample = .ok info ∧ ∀ t, ¬ Hosts C n info.actorId t) ∨
  (target = "~" ∧ wildcard (totalWeight W) o.sample = .ok info ∧ ∀ id, ¬ Hosts C n id ty) ∨
  (target ≠ "" ∧ Plain target ∧ (∀ t, ¬ Hosts C n target t) ∧
    ((W.idmap n target = true ∧ info = ⟨target, "", (C.cfg n).nodeID, (C.cfg n).ip, (C.cfg n).port⟩) ∨
      (W.idmap n target = false ∧ W.redis.ids target = some info)))

theorem not_has {C : Cluster} {n : Nat} {id : String} : C.has n id = false ↔ ∀ t, ¬ Hosts C n id t := by
  constructor
  · intro h t ht
    rw [has_iff.2 ⟨t, ht⟩] at h; cases h
  · intro h
    cases hh : C.has n id
    · rfl
    · obtain ⟨t, ht⟩ := has_iff.1 hh; exact absurd ht (h t)

theorem resolve_stale {C : Cluster} {n : Nat} {ty id : String} {w : Int} {info : Addr} :
    resolve C n ty info = .stale id w ↔
      info.ip = (C.cfg n).ip ∧ info.port = (C.cfg n).port ∧ (C.node n).factory ty = some w ∧ info.actorId = id := by
  unfold resolve
  constructor
  · intro h
    split at h
    · rename_i h2
      split at h
      · rename_i w' hw
        cases h; exact ⟨h2.1, h2.2, hw, rfl⟩
      · cases h
    · cases h
  · rintro ⟨h1, h2, h3, rfl⟩
    rw [if_pos ⟨h1, h2⟩, h3]

/-- When `Call` does not find the target here and has an address. -/
theorem route_resolved {C : Cluster} {W : World} {n : Nat} {target ty : String} {o : Oracle} (ho : o.Valid C W n ty)
    {d : Decision} (hd1 : d ≠ .empty) (hd2 : ∀ i, d ≠ .here i) (hd3 : ∀ e, d ≠ .unknown e) : route C W n target ty o = d ↔
      ∃ info, Found C W n target ty o info ∧ resolve C n ty info = d := by
  by_cases h0 : target = ""
  · subst h0
    simp [route, Found, Ne.symm hd1]
  by_cases h1 : target = "?"
  · subst h1
    have hf : ∀ info, Found C W n "?" ty o info ↔ wildcard (totalWeight W) o.sample = .ok info ∧ ∀ t, ¬ Hosts C n info.actorId t := by
      intro info; simp [Found, Plain]
    simp only [hf]
    cases hw : wildcard (totalWeight W) o.sample with
    | error e =>
      simp only [route, hw]
      constructor
      · intro h
        rw [if_neg (by decide), if_pos trivial] at h
        split at h
        · exact absurd h.symm (hd2 _)
        · exact absurd h.symm (hd3 _)
      · rintro ⟨info, ⟨h, _⟩, _⟩; cases h
    | ok info =>
      have hr : route C W n "?" ty o = if C.has n info.actorId then .here info.actorId else resolve C n ty info := by
        simp [route, hw]
      rw [hr]
      constructor
      · intro h
        cases hh : C.has n info.actorId
        · rw [hh] at h
          exact ⟨info, ⟨rfl, not_has.1 hh⟩, h⟩
        · rw [hh] at h; exact absurd h.symm (hd2 _)
      · rintro ⟨i, ⟨hi, hn⟩, hs⟩
        cases hi
        rw [not_has.2 hn]
        exact hs
  by_cases h2 : target = "~"
  · subst h2
    have hf : ∀ info, Found C W n "~" ty o info ↔ wildcard (totalWeight W) o.sample = .ok info ∧ ∀ id, ¬ Hosts C n id ty := by
      intro info; simp [Found, Plain]
    simp only [hf]
    have hnone : o.order.find? (·.2 = ty) = none ↔ ∀ id, ¬ Hosts C n id ty := by
      rw [List.find?_eq_none]
      constructor
      · intro h id hid
        exact h (id, ty) (ho.2.mem_iff.2 hid) (by simp)
      · rintro h ⟨id, t⟩ hx he
        simp only [decide_eq_true_eq] at he
        subst he
        exact h id (ho.2.mem_iff.1 hx)
    cases hl : o.order.find? (·.2 = ty) with
    | some x =>
      have hne : ¬ ∀ id, ¬ Hosts C n id ty := fun h => by rw [hnone.2 h] at hl; cases hl
      constructor
      · intro h; simp [route, hl] at h; exact absurd h.symm (hd2 _)
      · rintro ⟨_, ⟨_, h⟩, _⟩; exact absurd h hne
    | none =>
      have hall := hnone.1 hl
      cases hw : wildcard (totalWeight W) o.sample with
      | error e =>
        constructor
        · intro h; simp [route, hl, hw] at h; exact absurd h.symm (hd3 _)
        · rintro ⟨_, ⟨h, _⟩, _⟩; cases h
      | ok info =>
        have hr : route C W n "~" ty o = resolve C n ty info := by simp [route, hl, hw]
        rw [hr]
        constructor
        · intro h; exact ⟨info, ⟨rfl, hall⟩, h⟩
        · rintro ⟨i, ⟨hi, _⟩, hs⟩; cases hi; exact hs
  · have hr : route C W n target ty o = if C.has n target then .here target else
        match getByID C.cfg W n target with
        | .ok info => resolve C n ty info
        | .error e => .unknown e := by
      unfold route
      rw [if_neg h0, if_neg h1, if_neg h2]
      rfl
    rw [hr]
    have hf : ∀ info, Found C W n target ty o info ↔ C.has n target = false ∧ getByID C.cfg W n target = .ok info := by
      intro info
      rw [not_has]
      unfold Found getByID
      rw [if_neg h0]
      simp only [h1, h2, h0, Plain, false_and, false_or, ne_eq, not_false_eq_true, and_self, true_and]
      refine and_congr_right fun _ => ?_
      cases W.idmap n target
      · simp only [Bool.false_eq_true, false_and, true_and, false_or, if_false]
        cases W.redis.ids target <;> simp
      · simp only [true_and, Bool.true_eq_false, false_and, or_false, if_true]
        constructor
        · rintro rfl; rfl
        · intro h; cases h; rfl
    simp only [hf]
    cases hh : C.has n target
    · cases hg : getByID C.cfg W n target with
      | ok info => simp
      | error e => simp [Ne.symm (hd3 e)]
    · simp [Ne.symm (hd2 target)]

/-- When `Call` takes a record for stale. -/
theorem route_stale {C : Cluster} {W : World} {n : Nat} {target ty : String} {o : Oracle} (ho : o.Valid C W n ty)
    {id : String} {w : Int} : route C W n target ty o = .stale id w ↔
      ∃ info, Found C W n target ty o info ∧ resolve C n ty info = .stale id w :=
  route_resolved ho (by simp) (by simp) (by simp)

/-- C26 (exactly): in every state, the record that `Call` or `Send` removes is that of the id in the address that the lookup gave,
if this has the ip and port of the node and the node has a constructor for the type asked for; and it is removed then. That the
record is one of this node, for an actor that it does not host, is not looked at. -/
theorem C26_removed_exact (C : Cluster) (W : World) (n : Nat) (target ty : String) (o : Oracle) (ho : o.Valid C W n ty) (a : Addr) :
    Removed W (effect C W n (route C W n target ty o)) a ↔
      ∃ info, Found C W n target ty o info ∧ info.ip = (C.cfg n).ip ∧ info.port = (C.cfg n).port ∧
        (C.node n).factory ty ≠ none ∧ info.actorId ≠ "" ∧ W.redis.ids info.actorId = some a := by
  have hno : ¬ Removed W W a := by rintro (⟨_, h1, h2⟩ | ⟨_, h1, h2⟩) <;> contradiction
  constructor
  · intro hr
    cases hd : route C W n target ty o with
    | stale id w =>
      rw [hd] at hr
      obtain ⟨info, hf, hs⟩ := (route_stale ho).1 hd
      obtain ⟨h1, h2, h3, rfl⟩ := resolve_stale.1 hs
      refine ⟨info, hf, h1, h2, by rw [h3]; simp, ?_, removed_unregister hr⟩
      intro he
      apply hno
      simpa [effect, unregister, he] using hr
    | empty => rw [hd] at hr; exact absurd hr hno
    | here => rw [hd] at hr; exact absurd hr hno
    | unknown => rw [hd] at hr; exact absurd hr hno
    | crash => rw [hd] at hr; exact absurd hr hno
    | forward => rw [hd] at hr; exact absurd hr hno
  · rintro ⟨info, hf, h1, h2, h3, h4, h5⟩
    cases hw : (C.node n).factory ty with
    | none => exact absurd hw h3
    | some w =>
      rw [(route_stale ho).2 ⟨info, hf, resolve_stale.2 ⟨h1, h2, hw, rfl⟩⟩]
      refine .inl ⟨info.actorId, h5, ?_⟩
      simp [effect, unregister, h4, h5, unregisterCmds, Redis.pipe, Redis.run, AddressBook.set]

/-- C26: a call removes at most one record. -/
theorem C26_removes_one (C : Cluster) (W : World) (n : Nat) (target ty : String) (o : Oracle) (a b : Addr)
    (ha : Removed W (effect C W n (route C W n target ty o)) a) (hb : Removed W (effect C W n (route C W n target ty o)) b) :
    a = b := by
  cases hd : route C W n target ty o with
  | stale id w =>
    rw [hd] at ha hb
    have h1 := removed_unregister ha
    have h2 := removed_unregister hb
    rw [h1] at h2; cases h2; rfl
  | empty => rw [hd] at ha; rcases ha with ⟨_, h1, h2⟩ | ⟨_, h1, h2⟩ <;> contradiction
  | here => rw [hd] at ha; rcases ha with ⟨_, h1, h2⟩ | ⟨_, h1, h2⟩ <;> contradiction
  | unknown => rw [hd] at ha; rcases ha with ⟨_, h1, h2⟩ | ⟨_, h1, h2⟩ <;> contradiction
  | crash => rw [hd] at ha; rcases ha with ⟨_, h1, h2⟩ | ⟨_, h1, h2⟩ <;> contradiction
  | forward => rw [hd] at ha; rcases ha with ⟨_, h1, h2⟩ | ⟨_, h1, h2⟩ <;> contradiction

/-- After a crash node 0 starts again without its actor: the record is found, and removed. -/
example : Removed (runOps exCfg exOps) (effect { exC with node := fun _ => ⟨[], fun _ => some 1⟩ } (runOps exCfg exOps) 0
    (route { exC with node := fun _ => ⟨[], fun _ => some 1⟩ } (runOps exCfg exOps) 0 "?" "t"
      ⟨[⟨"x", "t", "a", "10.0.0.1", 0⟩, ⟨"z", "t", "aa", "10.0.0.1", 1⟩], []⟩)) ⟨"x", "t", "a", "10.0.0.1", 0⟩ := by
  refine (C26_removed_exact _ _ 0 "?" "t" _ ⟨⟨by decide +kernel, by decide +kernel, by decide +kernel⟩, .refl _⟩ _).2
    ⟨⟨"x", "t", "a", "10.0.0.1", 0⟩, .inl ⟨rfl, by decide +kernel, by simp [Hosts]⟩, ?_⟩
  exact ⟨by decide +kernel, by decide +kernel, by simp, by decide, by decide +kernel⟩

/-! ### C138 -/

/-- The recorded loads are the sums of the weights of these actors. -/
def Sums (cfg : Nat → NodeCfg) (W : World) (d : List AddressBook.Spec.Reg) : Prop := ∀ m,
  (totalWeight W (cfg m).nodeID).getD 0 = AddressBook.Spec.weightOf d (·.node = m) ∧
  ∀ ty, (hget (.actor ty) (W.redis.load (cfg m).nodeID)).getD 0 = AddressBook.Spec.weightOf d fun r => r.node = m ∧ r.ty = ty

/-- The address book was built by a history that follows the rules; node `n` has not stopped, has its address for itself, and
registered its actors with their types and the weights of their constructors. Which actors are running does not matter. -/
structure Setting (C : Cluster) (own : String → Nat) (ops : List AddressBook.Op) (n : Nat) : Prop where
  distinct : DistinctNodes C.cfg
  legal : AddressBook.Spec.LegalOps own ops
  alive : n ∉ AddressBook.Spec.stopped ops
  addr : ∀ m, (C.cfg m).ip = (C.cfg n).ip → (C.cfg m).port = (C.cfg n).port → m = n
  types : ∀ r ∈ AddressBook.Spec.dir ops, ∀ ty, r.node = n → Hosts C n r.id ty → ty = r.ty
  weights : ∀ r ∈ AddressBook.Spec.dir ops, r.node = n → (C.node n).factory r.ty = some r.weight

/-- C138 (exactly): when `Call` or `Send` removes a record, the weight of the type that was asked for is taken off, from the load of
this node in total and for the type of the record. Compared to the actors that remain, these two are off by the difference between
the weight of the actor and that; all other loads are right. -/
theorem C138_exact {C : Cluster} {own : String → Nat} {ops : List AddressBook.Op} {n : Nat} (hs : Setting C own ops n)
    (target ty : String) (o : Oracle) (ho : o.Valid C (runOps C.cfg ops) n ty) (a : Addr)
    (hr : Removed (runOps C.cfg ops) (effect C (runOps C.cfg ops) n (route C (runOps C.cfg ops) n target ty o)) a) :
    ∃ r ∈ AddressBook.Spec.dir ops, r.id = a.actorId ∧ r.node = n ∧ r.ty = a.actorTy ∧
    ∃ w, (C.node n).factory ty = some w ∧ ∀ m,
      (totalWeight (effect C (runOps C.cfg ops) n (route C (runOps C.cfg ops) n target ty o)) (C.cfg m).nodeID).getD 0 =
        AddressBook.Spec.weightOf ((AddressBook.Spec.dir ops).filter (·.id ≠ a.actorId)) (·.node = m) +
          (if m = n then r.weight - w else 0) ∧
      ∀ t, (hget (.actor t) ((effect C (runOps C.cfg ops) n (route C (runOps C.cfg ops) n target ty o)).redis.load
          (C.cfg m).nodeID)).getD 0 =
        AddressBook.Spec.weightOf ((AddressBook.Spec.dir ops).filter (·.id ≠ a.actorId)) (fun r => r.node = m ∧ r.ty = t) +
          (if m = n ∧ t = r.ty then r.weight - w else 0) := by
  have hdead := C26_cleanup_history_partial hs.distinct hs.legal hs.alive hs.addr hs.types target ty o ho a hr
  obtain ⟨info, hf, h1, h2, h3, h4, h5⟩ := (C26_removed_exact _ _ _ _ _ _ ho _).1 hr
  have hR := refines_run hs.distinct ops hs.legal
  obtain ⟨r, hrd, hid, hra⟩ := (hR.ids _ _).1 h5
  have ha1 : a.actorId = r.id := by rw [← hra]; rfl
  have ha2 : a.actorTy = r.ty := by rw [← hra]; rfl
  have hn : r.node = n := hs.distinct _ _ (by rw [← hdead.1, ← hra]; rfl)
  cases hw : (C.node n).factory ty with
  | none => exact absurd hw h3
  | some w =>
    refine ⟨r, hrd, ha1.symm, hn, ha2.symm, w, rfl, ?_⟩
    rw [(route_stale ho).2 ⟨info, hf, resolve_stale.2 ⟨h1, h2, hw, rfl⟩⟩]
    have key : ∀ m f, (hget f ((effect C (runOps C.cfg ops) n (.stale info.actorId w)).redis.load (C.cfg m).nodeID)).getD 0 =
        AddressBook.Spec.weightOf ((AddressBook.Spec.dir ops).filter (·.id ≠ a.actorId)) (counts m f) +
          if counts m f r then r.weight - w else 0 := by
      intro m f
      rw [ha1, weightOf_remove hR.nodup hrd]
      have hload : (effect C (runOps C.cfg ops) n (.stale info.actorId w)).redis.load =
          AddressBook.set (AddressBook.set (runOps C.cfg ops).redis.load (C.cfg n).nodeID
            (hincrBy (.actor a.actorTy) (-w) ((runOps C.cfg ops).redis.load (C.cfg n).nodeID))) (C.cfg n).nodeID
            (hincrBy .total (-w) (hincrBy (.actor a.actorTy) (-w) ((runOps C.cfg ops).redis.load (C.cfg n).nodeID))) := by
        simp [effect, unregister, h4, h5, unregisterCmds, Redis.pipe, Redis.run, AddressBook.set]
      have hold := hR.load m f
      rw [hload, set_apply]
      by_cases hm : m = n
      · subst hm
        rw [if_pos rfl, hget_hincrBy]
        cases f with
        | total =>
          have hc : counts m .total r = true := by simp [counts, hn]
          simp only [hc, if_true, hget_hincrBy, reduceCtorEq, if_false, Option.getD_some]
          rw [hold]; omega
        | actor t =>
          have hc : counts m (.actor t) r = decide (r.ty = t) := by simp [counts, hn]
          simp only [reduceCtorEq, if_false, hget_hincrBy, hc, ha2]
          by_cases ht : r.ty = t
          · subst ht
            simp only [if_true, decide_true, Option.getD_some]
            rw [hold]; omega
          · have ht' : ¬ Field.actor t = Field.actor r.ty := fun h => ht (by cases h; rfl)
            simp only [ht', ht, if_false, decide_false, Bool.false_eq_true]
            rw [hold]; omega
      · have hne : ¬ (C.cfg m).nodeID = (C.cfg n).nodeID := fun h => hm (hs.distinct _ _ h)
        have hc : counts m f r = false := by
          simp only [counts, hn]
          have : ¬ n = m := fun h => hm h.symm
          simp [this]
        rw [if_neg hne, set_apply, if_neg hne, hc]
        simp only [Bool.false_eq_true, if_false]
        rw [hold]; omega
    intro m
    refine ⟨?_, fun t => ?_⟩
    · have := key m .total
      rw [show counts m .total = fun r => decide (r.node = m) from by funext r; simp [counts]] at this
      rw [totalWeight, this]
      by_cases hm : m = n
      · simp [hm, hn]
      · have : ¬ n = m := fun h => hm h.symm
        simp [hm, hn, this]
    · have := key m (.actor t)
      rw [show counts m (.actor t) = fun r => decide (r.node = m ∧ r.ty = t) from by funext r; simp [counts]] at this
      rw [this]
      by_cases hm : m = n ∧ t = r.ty
      · obtain ⟨rfl, rfl⟩ := hm
        simp [hn]
      · rw [if_neg hm, if_neg]
        simp only [decide_eq_true_eq]
        rintro ⟨e1, e2⟩
        exact hm ⟨by rw [← e1, hn], e2.symm⟩

/-- C138 (partial): the loads are right after the removal if the type asked for is that of the record. Missing: calls by id with
another type (`C138_refuted`). -/
theorem C138_type_partial {C : Cluster} {own : String → Nat} {ops : List AddressBook.Op} {n : Nat} (hs : Setting C own ops n)
    (target ty : String) (o : Oracle) (ho : o.Valid C (runOps C.cfg ops) n ty) (a : Addr)
    (hr : Removed (runOps C.cfg ops) (effect C (runOps C.cfg ops) n (route C (runOps C.cfg ops) n target ty o)) a)
    (hty : a.actorTy = ty) :
    Sums C.cfg (effect C (runOps C.cfg ops) n (route C (runOps C.cfg ops) n target ty o))
      ((AddressBook.Spec.dir ops).filter (·.id ≠ a.actorId)) := by
  obtain ⟨r, hrd, -, hn, ht, w, hw, h⟩ := C138_exact hs target ty o ho a hr
  have : w = r.weight := by
    have h1 := hs.weights r hrd hn
    rw [ht, hty, hw] at h1
    exact Option.some.inj h1
  subst this
  intro m
  obtain ⟨h1, h2⟩ := h m
  refine ⟨by rw [h1]; simp, fun t => by rw [h2]; simp⟩

/-- C138: so they are with the symbols: the record that is removed has the type that was asked for. -/
theorem C138_symbol {C : Cluster} {own : String → Nat} {ops : List AddressBook.Op} {n : Nat} (hs : Setting C own ops n)
    {target : String} (hsym : target = "?" ∨ target = "~") (ty : String) (o : Oracle)
    (ho : o.Valid C (runOps C.cfg ops) n ty) (a : Addr)
    (hr : Removed (runOps C.cfg ops) (effect C (runOps C.cfg ops) n (route C (runOps C.cfg ops) n target ty o)) a) :
    Sums C.cfg (effect C (runOps C.cfg ops) n (route C (runOps C.cfg ops) n target ty o))
      ((AddressBook.Spec.dir ops).filter (·.id ≠ a.actorId)) := by
  refine C138_type_partial hs target ty o ho a hr ?_
  have hc := coherent_of_ops hs.distinct hs.legal hs.alive hs.addr hs.types
  obtain ⟨info, hf, -, -, -, -, h5⟩ := (C26_removed_exact _ _ _ _ _ _ ho _).1 hr
  have hw : wildcard (totalWeight (runOps C.cfg ops)) o.sample = .ok info := by
    rcases hf with ⟨-, h, -⟩ | ⟨-, h, -⟩ | ⟨-, h, -⟩
    · exact h
    · exact h
    · rcases hsym with rfl | rfl
      · exact absurd rfl h.1
      · exact absurd rfl h.2
  obtain ⟨h6, h7⟩ := hc.sets _ _ (ho.1.2.1 _ (wildcard_mem hw))
  rw [h6] at h5
  cases h5
  exact h7

/-- The full statement of C138: a cleanup keeps the loads right. -/
def LoadsKept : Prop := ∀ (C : Cluster) own ops n, Setting C own ops n → ∀ target ty o, o.Valid C (runOps C.cfg ops) n ty → ∀ a,
  Removed (runOps C.cfg ops) (effect C (runOps C.cfg ops) n (route C (runOps C.cfg ops) n target ty o)) a →
  Sums C.cfg (effect C (runOps C.cfg ops) n (route C (runOps C.cfg ops) n target ty o))
    ((AddressBook.Spec.dir ops).filter (·.id ≠ a.actorId))

/-- Node 0 was started again and does not have its actor "x" of type "t" (weight 3); it also has a constructor for "u" (weight 5). -/
def lateC : Cluster := { exC with node := fun _ => ⟨[], fun ty => if ty = "t" then some 3 else if ty = "u" then some 5 else none⟩ }

theorem late_setting : Setting lateC exOwn [.register 0 "t" "x" 3] 0 := by
  refine ⟨exCfg_distinct, legalOps_concat (ops := []) legalOps_nil (by simp [AddressBook.Spec.Legal, AddressBook.Spec.stopped,
    AddressBook.Spec.opNode, exOwn]), by simp [AddressBook.Spec.stopped], ?_, ?_, ?_⟩
  · intro m _ h
    have h : (m : Int) = 0 := h
    omega
  · intro r _ ty _ hh; simp [Hosts, lateC] at hh
  · have hdir : AddressBook.Spec.dir [.register 0 "t" "x" 3] = [⟨"x", "t", 0, 3⟩] := by decide +kernel
    rw [hdir]
    intro r hr _
    rw [List.mem_singleton] at hr
    subst hr
    rfl

/-- C138 is violated: a call by id that names another type takes off the weight of that type: the load of the node, which has no
actors any more, is -2. -/
theorem C138_refuted : ¬ LoadsKept := by
  intro h
  have hv : (⟨[], []⟩ : Oracle).Valid lateC (runOps lateC.cfg [.register 0 "t" "x" 3]) 0 "u" :=
    ⟨⟨by simp, by simp, by decide +kernel⟩, .refl _⟩
  have hrem : Removed (runOps lateC.cfg [.register 0 "t" "x" 3]) (effect lateC (runOps lateC.cfg [.register 0 "t" "x" 3]) 0
      (route lateC (runOps lateC.cfg [.register 0 "t" "x" 3]) 0 "x" "u" ⟨[], []⟩)) (address lateC 0 "t" "x") :=
    .inl ⟨"x", by decide +kernel, by decide +kernel⟩
  have h1 := (h lateC exOwn _ 0 late_setting "x" "u" _ hv _ hrem 0).1
  have h2 : (totalWeight (effect lateC (runOps lateC.cfg [.register 0 "t" "x" 3]) 0
      (route lateC (runOps lateC.cfg [.register 0 "t" "x" 3]) 0 "x" "u" ⟨[], []⟩)) (lateC.cfg 0).nodeID).getD 0 = -2 := by
    decide +kernel
  rw [h2] at h1
  revert h1
  decide +kernel

/-- C138 (exactly): when a call panics: the lookup gave an address with the ip and port of this node, there is no such actor here, and
the node has no constructor for the type asked for. -/
theorem C138_panics_exact (C : Cluster) (W : World) (n : Nat) (target ty : String) (o : Oracle) (ho : o.Valid C W n ty) :
    route C W n target ty o = .crash ↔
      ∃ info, Found C W n target ty o info ∧ info.ip = (C.cfg n).ip ∧ info.port = (C.cfg n).port ∧ (C.node n).factory ty = none := by
  rw [route_resolved ho (by simp) (by simp) (by simp)]
  refine exists_congr fun info => and_congr_right fun _ => ?_
  unfold resolve
  constructor
  · intro h
    split at h
    · rename_i h2
      split at h
      · cases h
      · rename_i hw; exact ⟨h2.1, h2.2, hw⟩
    · cases h
  · rintro ⟨h1, h2, h3⟩
    rw [if_pos ⟨h1, h2⟩, h3]

/-- The full statement for panics: a call never panics. -/
def NoPanic : Prop := ∀ (C : Cluster) own ops n, Setting C own ops n → ∀ target ty o, o.Valid C (runOps C.cfg ops) n ty →
  route C (runOps C.cfg ops) n target ty o ≠ .crash

/-- C138 is violated: a call by the id of an actor that the node does not have any more, with a type that it does not know, panics. -/
theorem C138_panic_refuted : ¬ NoPanic := by
  intro h
  refine h lateC exOwn _ 0 late_setting "x" "v" ⟨[], []⟩ ⟨⟨by simp, by simp, by decide +kernel⟩, .refl _⟩ ?_
  decide +kernel

/-- With its own type the load is right. -/
example : Sums lateC.cfg (effect lateC (runOps lateC.cfg [.register 0 "t" "x" 3]) 0
    (route lateC (runOps lateC.cfg [.register 0 "t" "x" 3]) 0 "x" "t" ⟨[address lateC 0 "t" "x"], []⟩))
    ((AddressBook.Spec.dir [.register 0 "t" "x" 3]).filter (·.id ≠ "x")) :=
  C138_type_partial late_setting "x" "t" _ ⟨⟨by simp, by decide +kernel, by decide +kernel⟩, .refl _⟩ (address lateC 0 "t" "x")
    (.inl ⟨"x", by decide +kernel, by decide +kernel⟩) rfl

end Braid.System
