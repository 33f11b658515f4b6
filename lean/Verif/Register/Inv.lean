import Verif.Register.Spec

/-
Invariants of creating and removing actors.
-/
namespace Braid.Register
open AddressBook Spec

variable {cfg : Nat → NodeCfg} {factory : Nat → String → Option Int}

/-- Case distinction on a step. -/
macro "rg_cases" h:ident : tactic => `(tactic| (
  simp only [step, stepGo, stepFail, ret, at_] at $h:ident
  repeat' (split at $h:ident)
  all_goals (try (cases $h:ident))))

@[grind =] theorem get_put (l : List (String × Nat)) (id id' : String) (i : Nat) :
    get (put l id i) id' = if id' = id then some i else get l id' := by
  unfold get put
  rw [List.lookup_cons]
  by_cases h : id' = id
  · simp [h]
  · have : (id' == id) = false := by simpa using h
    simp only [this, h, if_false]
    unfold del
    induction l with
    | nil => rfl
    | cons p l ih =>
      obtain ⟨a, b⟩ := p
      by_cases ha : a = id
      · subst ha
        simp only [ne_eq, not_true_eq_false, decide_false, Bool.false_eq_true, not_false_eq_true,
          List.filter_cons_of_neg, List.lookup_cons, this]
        simpa using ih
      · simp [ha, List.lookup_cons]
        simp only [ne_eq, decide_not] at ih
        rw [ih]

@[grind =] theorem get_del (l : List (String × Nat)) (id id' : String) :
    get (del l id) id' = if id' = id then none else get l id' := by
  unfold get del
  induction l with
  | nil => simp
  | cons p l ih =>
    obtain ⟨a, b⟩ := p
    by_cases ha : a = id
    · subst ha
      by_cases h : id' = a
      · subst h; simpa using ih
      · have : (id' == a) = false := by simpa using h
        simpa [List.lookup_cons, this, h] using ih
    · by_cases h : id' = id
      · subst h
        have h2 : (id' == a) = false := by simpa using fun h => ha h.symm
        simpa [ha, List.lookup_cons, h2] using ih
      · simp only [h, if_false] at ih ⊢
        simp only [ne_eq, decide_not] at ih
        simp [ha, List.lookup_cons, ih]

theorem get_any {l : List (String × Nat)} {f : Nat → Bool} (h : l.any (fun p => f p.2) = false) {id : String}
    {i : Nat} (hg : get l id = some i) : f i = false := by
  unfold get at hg
  induction l with
  | nil => cases hg
  | cons p l ih =>
    obtain ⟨a, b⟩ := p
    simp only [List.any_cons, Bool.or_eq_false_iff] at h
    rw [List.lookup_cons] at hg
    split at hg
    · cases hg; exact h.1
    · exact ih h.2 hg

/-! ### Operations in progress -/

theorem activeOf_nil : activeOf [] = [] := rfl

theorem activeOf_concat (h : List Ev) (e : Ev) : activeOf (h ++ [e]) =
    match e with
    | .begin g o => (g, o) :: activeOf h
    | .finish g _ => (activeOf h).filter (·.1 ≠ g)
    | _ => activeOf h := by
  unfold activeOf
  rw [List.reverse_append, List.reverse_singleton, List.singleton_append]
  cases e <;> rfl

/-- The history knows which operation each goroutine is in. -/
theorem active_iff {h : List Ev} {s : State} (hr : (sys cfg factory).Run h s) (g : Nat) (o : Op) :
    (g, o) ∈ activeOf h ↔ (s.pc g).op = some o := by
  revert g o
  refine hr.invariant (P := fun h s => ∀ g o, (g, o) ∈ activeOf h ↔ (s.pc g).op = some o) ?_ ?_
  · intro g o; simp [activeOf_nil, sys, init, Pc.op]
  · intro h s a s' evs _ hi hs g o
    replace hs : step cfg factory s a = some (s', evs) := hs
    have h0 := hi g o
    rg_cases hs
    all_goals simp only [List.append_nil, activeOf_concat, List.mem_cons, List.mem_filter, Prod.mk.injEq]
    all_goals simp only [upd_apply]
    all_goals grind [Pc.op]

theorem excl_prefix {κ : Type} {key : Op → Option κ} {h evs : List Ev} (hx : Exclusive key (h ++ evs)) :
    Exclusive key h := fun pre g o post he => hx pre g o (post ++ evs) (by rw [he]; simp)

/-- At most one goroutine is in an operation with a given key. -/
def Ex {κ : Type} (key : Op → Option κ) (s : State) : Prop :=
  ∀ g g' k, (s.pc g).op.bind key = some k → (s.pc g').op.bind key = some k → g = g'

theorem exclusive_ex {κ : Type} {key : Op → Option κ} {h : List Ev} {s : State}
    (hr : (sys cfg factory).Run h s) (hx : Exclusive key h) : Ex key s := by
  revert hx
  refine hr.invariant (P := fun h s => Exclusive key h → Ex key s) ?_ ?_
  · intro _ g g' k h; simp [sys, init, Pc.op] at h
  · intro h s a s' evs hr hi hs hx
    have he := hi (excl_prefix hx)
    have hact := active_iff hr
    replace hs : step cfg factory s a = some (s', evs) := hs
    have key' : ∀ g o, evs = [.begin g o] → ∀ g' k, key o = some k → (s.pc g').op.bind key ≠ some k := by
      intro g o he g' k h1 h2
      cases ho : (s.pc g').op with
      | none => rw [ho] at h2; cases h2
      | some o' => rw [ho] at h2; exact hx h g o [] (by rw [he]) (g', o') ((hact g' o').2 ho) k h1 h2
    intro g g' k h1 h2
    have h0 := he g g' k
    rg_cases hs
    all_goals simp only [upd_apply] at h1 h2
    all_goals first
      | (have key2 := key' _ _ rfl
         clear hx key' hact hi
         split at h1 <;> split at h2 <;> simp only [Pc.op, Option.bind_some] at h1 h2
         · simp_all
         · exact absurd h2 (key2 _ _ h1)
         · exact absurd h1 (key2 _ _ h2)
         · exact h0 h1 h2)
      | grind [Pc.op]

/-! ### Actor objects -/

/-- Numbers of actor objects are below `next`. -/
structure InvN (s : State) : Prop where
  dead : ∀ i, s.next ≤ i → s.alive i = false
  map : ∀ n id i, get (s.map n) id = some i → i < s.next
  exit : ∀ g n id ty i, s.pc g = .uExit n id ty i → i < s.next
  ins : ∀ g n b i, s.pc g = .rInsert n b i → i < s.next ∧ s.inst i = ⟨n, b.id, b.ty⟩

theorem invN_step {s : State} {a : Act} {s' : State} {evs : List Ev} (hi : InvN s)
    (hs : step cfg factory s a = some (s', evs)) : InvN s' := by
  obtain ⟨h1, h2, h3, h4⟩ := hi
  rg_cases hs
  all_goals constructor
  all_goals simp only [upd_apply]
  all_goals grind

theorem invN_run {h : List Ev} {s : State} (hr : (sys cfg factory).Run h s) : InvN s :=
  hr.invariant (P := fun _ s => InvN s)
    ⟨fun _ _ => rfl, fun _ _ _ h => (by cases h), fun _ _ _ _ _ h => (by cases h), fun _ _ _ _ h => (by cases h)⟩
    fun _ _ _ _ _ _ hi hs => invN_step hi hs

/-- The history knows the actor objects. -/
structure InvH (h : List Ev) (s : State) : Prop where
  created : ∀ i a, Ev.created i a ∈ h ↔ i < s.next ∧ s.inst i = a
  exited : ∀ i, Ev.exited i ∈ h ↔ i < s.next ∧ s.alive i = false

theorem invH_run {h : List Ev} {s : State} (hr : (sys cfg factory).Run h s) : InvH h s := by
  refine hr.invariant (P := InvH) ⟨fun i a => by simp [sys, init], fun i => by simp [sys, init]⟩ ?_
  intro h s a s' evs hr hi hs
  have hn := invN_run hr
  replace hs : step cfg factory s a = some (s', evs) := hs
  obtain ⟨h1, h2, h3, h4⟩ := hn
  obtain ⟨h5, h6⟩ := hi
  rg_cases hs
  all_goals constructor
  all_goals simp only [upd_apply, List.mem_append, List.mem_singleton, List.append_nil, h5, h6]
  all_goals grind

/-! ### One actor per id -/

/-- Where a `Register` has passed the look into the map. -/
def Pc.past : Pc → Option (Nat × String)
  | .rUnique n b => some (n, b.id)
  | .rCount n b => some (n, b.id)
  | .rBook n b => some (n, b.id)
  | .rPipe n b _ => some (n, b.id)
  | .rIdmap n b => some (n, b.id)
  | .rBuild n b => some (n, b.id)
  | .rInsert n b _ => some (n, b.id)
  | _ => none

theorem past_key {p : Pc} {k : Nat × String} (h : p.past = some k) : p.op.bind idKey = some k := by
  cases p <;> simp_all [Pc.past, Pc.op, idKey]

structure InvId (s : State) : Prop where
  inst : ∀ n id i, get (s.map n) id = some i → (s.inst i).node = n ∧ (s.inst i).id = id
  cand : ∀ i, s.alive i = true → get (s.map (s.inst i).node) (s.inst i).id = some i ∨
    ∃ g b, s.pc g = .rInsert (s.inst i).node b i
  past : ∀ g n id, (s.pc g).past = some (n, id) → get (s.map n) id = none
  exit : ∀ g n id ty i, s.pc g = .uExit n id ty i → get (s.map n) id = some i
  del : ∀ g n id ty, s.pc g = .uDel n id ty → ∀ i, get (s.map n) id = some i → s.alive i = false

set_option maxHeartbeats 4000000 in
theorem invId_step {s : State} {a : Act} {s' : State} {evs : List Ev} (hn : InvN s) (hx : Ex idKey s)
    (hi : InvId s) (hs : step cfg factory s a = some (s', evs)) : InvId s' := by
  obtain ⟨n1, n2, n3, n4⟩ := hn
  obtain ⟨h1, h2, h3, h4, h5⟩ := hi
  have k1 : ∀ g n id ty i, s.pc g = .uExit n id ty i → (s.pc g).op.bind idKey = some (n, id) := by
    intro g n id ty i h; rw [h]; rfl
  have k2 : ∀ g n id ty, s.pc g = .uDel n id ty → (s.pc g).op.bind idKey = some (n, id) := by
    intro g n id ty h; rw [h]; rfl
  have k3 : ∀ g n id, (s.pc g).past = some (n, id) → (s.pc g).op.bind idKey = some (n, id) :=
    fun g n id h => past_key h
  have k4 : ∀ g n b i, s.pc g = .rInsert n b i → (s.pc g).past = some (n, b.id) := by
    intro g n b i h; rw [h]; rfl
  unfold Ex at hx
  rg_cases hs
  all_goals constructor
  all_goals simp only [upd_apply]
  all_goals grind [Pc.past]

theorem invId_run {h : List Ev} {s : State} (hr : (sys cfg factory).Run h s) (hx : Exclusive idKey h) :
    InvId s := by
  revert hx
  refine hr.invariant (P := fun h s => Exclusive idKey h → InvId s) ?_ ?_
  · intro _
    exact ⟨fun _ _ _ h => (by cases h), fun _ h => (by cases h), fun _ _ _ h => (by cases h),
      fun _ _ _ _ _ h => (by cases h), fun _ _ _ _ h => (by cases h)⟩
  · intro h s a s' evs hr hi hs hx
    exact invId_step (invN_run hr) (exclusive_ex hr (excl_prefix hx)) (hi (excl_prefix hx)) hs

/-- Two live objects with the same id on a node are the same. -/
theorem invId_unique {s : State} (hn : InvN s) (hx : Ex idKey s) (hi : InvId s) {i j : Nat}
    (h1 : s.alive i = true) (h2 : s.alive j = true) (h3 : (s.inst i).node = (s.inst j).node)
    (h4 : (s.inst i).id = (s.inst j).id) : i = j := by
  have key : ∀ {i j}, s.alive i = true → s.alive j = true → (s.inst i).node = (s.inst j).node →
      (s.inst i).id = (s.inst j).id → (∃ g b, s.pc g = .rInsert (s.inst i).node b i) → i = j := by
    rintro i j h1 h2 h3 h4 ⟨g, b, hg⟩
    have hb := (hn.ins _ _ _ _ hg).2
    have hbid : b.id = (s.inst i).id := by rw [hb]
    have hpast : (s.pc g).past = some ((s.inst i).node, b.id) := by rw [hg]; rfl
    have hnone := hi.past _ _ _ hpast
    rcases hi.cand j h2 with h | ⟨g', b', hg'⟩
    · rw [← h3, ← h4, ← hbid, hnone] at h; cases h
    · have hb' := (hn.ins _ _ _ _ hg').2
      have hbid' : b'.id = (s.inst j).id := by rw [hb']
      have hgg : g = g' := by
        apply hx g g' ((s.inst i).node, b.id)
        · rw [hg]; rfl
        · rw [hg', h3, hbid, h4, ← hbid']; rfl
      subst hgg
      rw [hg] at hg'
      exact (Pc.rInsert.inj hg').2.2
  rcases hi.cand i h1 with h | h
  · rcases hi.cand j h2 with h' | h'
    · rw [h3, h4, h'] at h; cases h; rfl
    · exact (key h2 h1 h3.symm h4.symm h').symm
  · exact key h1 h2 h3 h4 h

/-! ### What was started -/

theorem active_begun : ∀ (l : List Ev) (g : Nat) (o : Op), (g, o) ∈ active l → Ev.begin g o ∈ l
  | [], _, _, h => by cases h
  | e :: l, g, o, h => by
    have ih := active_begun l g o
    cases e with
    | begin g' o' =>
      simp only [active, List.mem_cons, Prod.mk.injEq] at h
      rcases h with ⟨rfl, rfl⟩ | h
      · simp
      · exact List.mem_cons_of_mem _ (ih h)
    | finish g' r =>
      simp only [active, List.mem_filter] at h
      exact List.mem_cons_of_mem _ (ih h.1)
    | created => exact List.mem_cons_of_mem _ (ih h)
    | exited => exact List.mem_cons_of_mem _ (ih h)

/-- An operation in progress was started. -/
theorem begun {h : List Ev} {s : State} (hr : (sys cfg factory).Run h s) {g : Nat} {o : Op}
    (ho : (s.pc g).op = some o) : Ev.begin g o ∈ h := by
  have := active_begun _ _ _ ((active_iff hr g o).2 ho)
  exact List.mem_reverse.1 this

/-! ### One actor per type and node -/

/-- Where a `Register` has passed the check for actors of the type, and not yet made its own. -/
def Pc.pastTy : Pc → Option (Nat × String)
  | .rCount n b => some (n, b.ty)
  | .rBook n b => some (n, b.ty)
  | .rPipe n b _ => some (n, b.ty)
  | .rIdmap n b => some (n, b.ty)
  | .rBuild n b => some (n, b.ty)
  | _ => none

theorem pastTy_key {p : Pc} {k : Nat × String} (h : p.pastTy = some k) : p.op.bind nodeTypeKey = some k := by
  cases p <;> simp_all [Pc.pastTy, Pc.op, nodeTypeKey]

/-- Actors of type `ty` on node `n`. -/
structure InvTy (n : Nat) (ty : String) (s : State) : Prop where
  uniq : ∀ i j, s.alive i = true → s.alive j = true → (s.inst i).node = n → (s.inst j).node = n →
    (s.inst i).ty = ty → (s.inst j).ty = ty → i = j
  past : ∀ g, (s.pc g).pastTy = some (n, ty) → ∀ i, s.alive i = true → (s.inst i).node = n → (s.inst i).ty ≠ ty

set_option maxHeartbeats 1000000 in
theorem invTy_step {n : Nat} {ty : String} {s : State} {a : Act} {s' : State} {evs : List Ev} (hn : InvN s)
    (hid : InvId s) (hx : Ex nodeTypeKey s)
    (hu : ∀ g b, s.pc g = .rMap n b → b.ty = ty → b.unique = true ∧ b.limit ≠ 0)
    (hi : InvTy n ty s) (hs : step cfg factory s a = some (s', evs)) : InvTy n ty s' := by
  obtain ⟨h1, h2⟩ := hi
  have n1 := hn.dead
  have n4 := hn.ins
  have c := hid.cand
  have k3 : ∀ g n ty, (s.pc g).pastTy = some (n, ty) → (s.pc g).op.bind nodeTypeKey = some (n, ty) :=
    fun g n id h => pastTy_key h
  have k4 : ∀ g n b i, s.pc g = .rInsert n b i → (s.pc g).op.bind nodeTypeKey = some (n, b.ty) := by
    intro g n b i h; rw [h]; rfl
  have k5 : ∀ g n b, s.pc g = .rUnique n b → (s.pc g).op.bind nodeTypeKey = some (n, b.ty) := by
    intro g n b h; rw [h]; rfl
  have k6 : ∀ m b, (s.map m).any (fun p => (s.inst p.2).ty = b) = false → ∀ id i, get (s.map m) id = some i →
      (s.inst i).ty ≠ b := by
    intro m b h id i hg
    have := get_any (f := fun i => decide ((s.inst i).ty = b)) h hg
    simpa using this
  unfold Ex at hx
  clear hn hid
  rg_cases hs
  all_goals constructor
  all_goals simp only [upd_apply]
  all_goals grind [Pc.pastTy]

theorem invTy_run {n : Nat} {ty : String} {h : List Ev} {s : State} (hr : (sys cfg factory).Run h s)
    (hx : Exclusive idKey h) (hx2 : Exclusive nodeTypeKey h)
    (hu : ∀ g b, Ev.begin g (.reg n b) ∈ h → b.ty = ty → b.unique = true ∧ b.limit ≠ 0) : InvTy n ty s := by
  revert hx hx2 hu
  refine hr.invariant (P := fun h s => Exclusive idKey h → Exclusive nodeTypeKey h →
    (∀ g b, Ev.begin g (.reg n b) ∈ h → b.ty = ty → b.unique = true ∧ b.limit ≠ 0) → InvTy n ty s) ?_ ?_
  · intro _ _ _
    exact ⟨fun _ _ h => (by cases h), fun _ h => (by cases h)⟩
  · intro h s a s' evs hr hi hs hx hx2 hu
    have hu' := fun g b hb => hu g b (List.mem_append_left _ hb)
    refine invTy_step (invN_run hr) (invId_run hr (excl_prefix hx)) (exclusive_ex hr (excl_prefix hx2)) ?_
      (hi (excl_prefix hx) (excl_prefix hx2) hu') hs
    intro g b hg
    exact hu' g b (begun hr (by rw [hg]; rfl))

/-! ### The global limit -/

/-- Where a `Register` has counted, and not yet added its record to the set. -/
def Pc.pend : Pc → Option String
  | .rBook _ b => some b.ty
  | .rPipe _ b k => if k ≤ 1 then some b.ty else none
  | _ => none

theorem pend_key {p : Pc} {k : String} (h : p.pend = some k) : p.op.bind typeKey = some k := by
  cases p <;> simp_all [Pc.pend, Pc.op, typeKey]

theorem run_register_cmd {n : Nat} {ty' id : String} {w : Int} {k : Nat} {c : Cmd}
    (hc : (registerCmds cfg n ty' id w)[k]? = some c) (r : Redis) (ty : String) :
    ((r.run c).tys ty).length ≤ (r.tys ty).length + (if k = 1 ∧ ty' = ty then 1 else 0) := by
  match k, hc with
  | 0, hc => cases hc; simp [Redis.run]
  | 1, hc =>
    cases hc
    simp only [Redis.run, AddressBook.set]
    by_cases h : ty = ty'
    · subst h; simp only [if_pos, true_and]; split <;> simp
    · rw [if_neg h, if_neg (by simpa using fun h' => h h'.symm)]; simp
  | 2, hc => cases hc; simp [Redis.run]
  | 3, hc => cases hc; simp [Redis.run]
  | 4, hc => cases hc; simp [Redis.run]
  | k + 5, hc => simp [registerCmds] at hc

theorem run_unregister_cmd {n : Nat} {a : Addr} {id : String} {w : Int} {k : Nat} {c : Cmd}
    (hc : (unregisterCmds cfg n a id w)[k]? = some c) (r : Redis) (ty : String) :
    ((r.run c).tys ty).length ≤ (r.tys ty).length := by
  match k, hc with
  | 0, hc => cases hc; simp [Redis.run]
  | 1, hc =>
    cases hc
    simp only [Redis.run, AddressBook.set]
    by_cases h : ty = a.actorTy
    · subst h; simp only [if_pos]; exact List.length_filter_le _ _
    · rw [if_neg h]; simp
  | 2, hc => cases hc; simp [Redis.run]
  | 3, hc => cases hc; simp [Redis.run]
  | k + 4, hc => simp [unregisterCmds] at hc

/-- Records of type `ty`, of which there may be `L`. -/
structure InvC (ty : String) (L : Int) (s : State) : Prop where
  le : ((s.W.redis.tys ty).length : Int) ≤ L
  pend : ∀ g, (s.pc g).pend = some ty → ((s.W.redis.tys ty).length : Int) < L

theorem registerCmds_none {n : Nat} {ty id : String} {w : Int} {k : Nat}
    (h : (registerCmds cfg n ty id w)[k]? = none) : 1 < k := by
  rw [List.getElem?_eq_none_iff] at h
  simp [registerCmds] at h
  omega

set_option maxHeartbeats 1000000 in
theorem invC_step {ty : String} {L : Int} {s : State} {a : Act} {s' : State} {evs : List Ev}
    (hx : Ex typeKey s) (hu : ∀ g n b, (s.pc g).op = some (.reg n b) → b.ty = ty → b.limit = L ∧ L ≠ 0)
    (hi : InvC ty L s) (hs : step cfg factory s a = some (s', evs)) : InvC ty L s' := by
  obtain ⟨h1, h2⟩ := hi
  have k3 : ∀ g ty, (s.pc g).pend = some ty → (s.pc g).op.bind typeKey = some ty := fun g ty h => pend_key h
  have k4 : ∀ g n b k, s.pc g = .rPipe n b k → (s.pc g).op.bind typeKey = some b.ty := by
    intro g n b i h; rw [h]; rfl
  have k5 : ∀ g n b, s.pc g = .rCount n b → (s.pc g).op.bind typeKey = some b.ty := by
    intro g n b h; rw [h]; rfl
  have u1 : ∀ g n b, s.pc g = .rMap n b → b.ty = ty → b.limit = L ∧ L ≠ 0 :=
    fun g n b h => hu g n b (by rw [h]; rfl)
  have u2 : ∀ g n b, s.pc g = .rCount n b → b.ty = ty → b.limit = L ∧ L ≠ 0 :=
    fun g n b h => hu g n b (by rw [h]; rfl)
  have r1 := @run_register_cmd cfg
  have r2 := @run_unregister_cmd cfg
  unfold Ex at hx
  clear hu
  rg_cases hs
  all_goals constructor
  all_goals simp only [upd_apply, setIdmap]
  all_goals grind [Pc.pend, getActorTypeCount]

theorem invC_run {ty : String} {L : Int} (hL : 0 < L) {h : List Ev} {s : State}
    (hr : (sys cfg factory).Run h s) (hx : Exclusive typeKey h)
    (hu : ∀ g n b, Ev.begin g (.reg n b) ∈ h → b.ty = ty → b.limit = L) : InvC ty L s := by
  revert hx hu
  refine hr.invariant (P := fun h s => Exclusive typeKey h →
    (∀ g n b, Ev.begin g (.reg n b) ∈ h → b.ty = ty → b.limit = L) → InvC ty L s) ?_ ?_
  · intro _ _
    exact ⟨by simp [sys, init, World.init]; omega, fun _ h => (by cases h)⟩
  · intro h s a s' evs hr hi hs hx hu
    have hu' := fun g n b hb => hu g n b (List.mem_append_left _ hb)
    refine invC_step (exclusive_ex hr (excl_prefix hx)) ?_ (hi (excl_prefix hx) hu') hs
    intro g n b hg hb
    exact ⟨hu' g n b (begun hr hg) hb, by omega⟩

end Braid.Register
