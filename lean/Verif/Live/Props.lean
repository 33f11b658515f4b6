import Verif.Live.Alive

/-
C118: an actor that was registered is found until it is unregistered, whatever runs at the same time.
-/
namespace Braid.Live
open AddressBook Spec

variable {cfg : Nat → NodeCfg} {factory : Nat → String → Option Int} {n : Nat} {id ty : String}

/-- C118, the part that holds: while an actor is registered it is alive and in the map of its node, and every
node finds its record in Redis, by its id and among the actors of its type. Any number of other goroutines may
register, unregister and call other actors meanwhile on any node, and call this one, and any Redis command may
fail. Missing: operations that overlap with the `Register` or `Unregister` of the actor (`Apart`), see
`C118_call_refuted`, `C118_any_refuted` and `C118_local_refuted`; actors with an id that another node uses too
(`Owned`), see `C118_owner_refuted`. -/
theorem C118_found_partial (hcfg : OwnAddress cfg n) {h : List Ev} {s : State} (hr : (sys cfg factory).Run h s)
    (ho : Owned n id ty h) (ha : Apart n id ty h) (hg : Registered n id h) :
    Found cfg n id ty s.r.W ∧ s.r.W.idmap n id = true ∧
    ∃ i, Register.get (s.r.map n) id = some i ∧ s.r.alive i = true ∧ s.r.inst i = ⟨n, id, ty⟩ := by
  obtain ⟨i, h1, h2, h3, h4⟩ := alive_run hr ha hg
  have hk := keep_run hcfg hr ho ha
  have hf := hk.full i h1
  have h5 := (hk.mapI i h1).1
  exact ⟨hf.1, hf.2, i, h1, h2, by rw [← h3, ← h4, ← h5]⟩

/-- C118, the part that holds: a call by its id that begins while the actor is registered, and during which no
`Unregister` of it begins, reaches the actor on its node. On another node it goes to the node of the actor, unless
Redis fails. It never reports that there is no such actor, and never removes its record. -/
theorem C118_reached_partial (hcfg : OwnAddress cfg n) (h0 : id ≠ "") (h1 : id ≠ "?") (h2 : id ≠ "~")
    {pre mid post : List Ev} {e : Ev} {s : State} {g m : Nat} {t : String}
    (hr : (sys cfg factory).Run ((pre ++ .call g m id t :: mid) ++ e :: post) s)
    (ho : Owned n id ty ((pre ++ .call g m id t :: mid) ++ e :: post))
    (ha : Apart n id ty ((pre ++ .call g m id t :: mid) ++ e :: post))
    (hg : Registered n id pre) (hc : Calm n id mid) (hn : ∀ e ∈ mid, ¬ Ends g e) (he : Ends g e) :
    (m = n → e = .ret g (.here id)) ∧
    (m ≠ n → e = .ret g (.forward (record cfg n id ty)) ∨ e = .ret g .failed) := by
  rcases way_end hcfg h0 h1 h2 hr ho ha rfl hg hc hn he with ⟨h, hm⟩ | ⟨h, hm⟩
  · exact ⟨fun _ => h, fun h' => absurd hm h'⟩
  · exact ⟨fun h' => absurd h' hm, fun _ => h⟩

/-! ### Witnesses -/

instance (n : Nat) (id : String) (o : Spec.Op) : Decidable (Changes n id o) := by
  cases o <;> (simp only [Changes]; infer_instance)

instance (n : Nat) (id ty : String) (o : Spec.Op) : Decidable (Meets n id ty o) := by
  cases o <;> (simp only [Meets]; infer_instance)

/-- `Apart`, computed. -/
def apartB (n : Nat) (id ty : String) (h : List Ev) : Bool :=
  (List.range h.length).all fun k =>
    match h[k]?.bind begins with
    | some o => (activeOf (h.take k)).all fun p =>
        decide ((Changes n id o → ¬ Changes n id p.2 ∧ ¬ Meets n id ty p.2) ∧ (Meets n id ty o → ¬ Changes n id p.2))
    | none => true

theorem apart_of {h : List Ev} (hb : apartB n id ty h = true) : Apart n id ty h := by
  rintro pre e post o rfl ho p hp
  have := List.all_eq_true.1 hb pre.length (by simp)
  simp only [List.getElem?_append_right (Nat.le_refl _), Nat.sub_self, List.getElem?_cons_zero, Option.bind_some, ho,
    List.take_left'] at this
  exact of_decide_eq_true (List.all_eq_true.1 this p hp)

/-- `Owned`, computed. -/
def ownedB (n : Nat) (id ty : String) (h : List Ev) : Bool :=
  h.all fun e =>
    match begins e with
    | some (.reg m b) => b.id ≠ id || (m = n && b.ty = ty)
    | some (.unreg m x _) => x ≠ id || m = n
    | _ => true

theorem owned_of {h : List Ev} (hb : ownedB n id ty h = true) : Owned n id ty h := by
  intro e he o ho
  have := List.all_eq_true.1 hb e he
  rw [ho] at this
  cases o with
  | reg m b => intro h; simpa [h] using this
  | unreg m x t => intro h; simpa [h] using this
  | call => trivial

/-- `Registered`, computed: the `Register` of `g` returned as event `k`. -/
theorem registered_of {h : List Ev} (k g : Nat) (b : Register.Builder)
    (h1 : h[k]? = some (.reg (.finish g .ok))) (h2 : (g, .reg n b) ∈ activeOf (h.take k)) (h3 : b.id = id)
    (h4 : (h.drop (k + 1)).all (fun e =>
      match begins e with
      | some (.unreg m x _) => m ≠ n || x ≠ id
      | _ => true) = true) : Registered n id h := by
  refine ⟨h.take k, g, b, h.drop (k + 1), ?_, h2, h3, ?_⟩
  · obtain ⟨hk, he⟩ := List.getElem?_eq_some_iff.1 h1
    rw [← he, List.getElem_cons_drop, List.take_append_drop]
  · intro e he t hb
    have := List.all_eq_true.1 h4 e he
    rw [hb] at this
    simp at this

/-- Nodes with the address 10.0.0.1 and a port of their own. -/
def exCfg (n : Nat) : NodeCfg := ⟨String.ofList (List.replicate (n + 1) 'a'), "10.0.0.1", n⟩

/-- All types are known. -/
def exFactory (_ : Nat) (_ : String) : Option Int := some 1

theorem exOwn (n : Nat) : OwnAddress exCfg n := fun _ _ h => by simpa [exCfg] using Int.ofNat.inj h

/-- The actor "x" of type "t", without limits. -/
def bx : Register.Builder := ⟨"x", "t", 1, 0, false⟩

/-- A goroutine registers it on node 0. -/
def regX (g : Nat) : List Act := .reg (.start g (.reg 0 bx)) :: List.replicate 11 (.reg (.go g))

/-- Where the actions lead, and what is observed. -/
def final (as : List Act) : State × List Ev := ((sys exCfg exFactory).exec init as).getD (init, [])

theorem run_final {as : List Act} (h : ((sys exCfg exFactory).exec init as).isSome = true) :
    (sys exCfg exFactory).Run (final as).2 (final as).1 := by
  obtain ⟨⟨s, l⟩, h⟩ := Option.isSome_iff_exists.1 h
  have : final as = (s, l) := by simp [final, h]
  rw [this]
  exact Lts.run_of_exec h

/-- Node 0 registers "x", and it is called on the nodes 0 and 1, while another actor is registered. -/
def goodActs : List Act :=
  regX 0 ++ [.reg (.start 3 (.reg 1 ⟨"y", "t", 1, 0, false⟩)), .call 1 0 "x" "t", .call 2 1 "x" "t", .reg (.go 3)] ++
  [.go 1, .go 2, .reg (.go 3), .go 2, .go 2, .go 2]

example : ∃ h s, (sys exCfg exFactory).Run h s ∧ Owned 0 "x" "t" h ∧ Apart 0 "x" "t" h ∧ Registered 0 "x" h ∧
    .ret 1 (.here "x") ∈ h ∧ .ret 2 (.forward (record exCfg 0 "x" "t")) ∈ h :=
  ⟨_, _, run_final (as := goodActs) (by decide +kernel), owned_of (by decide +kernel),
    apart_of (by decide +kernel), registered_of 2 0 bx (by decide +kernel) (by decide +kernel) rfl
    (by decide +kernel), by decide +kernel, by decide +kernel⟩

/-- The actor "x" of node 0 is registered and alive, nothing is in progress, and no node finds it. -/
def Lost (h : List Ev) (s : State) : Prop :=
  Registered 0 "x" h ∧ activeOf h = [] ∧ Register.get (s.r.map 0) "x" = some 0 ∧ s.r.alive 0 = true ∧
  s.r.W.redis.ids "x" = none ∧ s.r.W.redis.tys "t" = [] ∧
  -- a call on node 1 begun afterwards says that there is no such actor
  ∃ pre, h = pre ++ [.call 5 1 "x" "t", .ret 5 .unknown] ∧ Registered 0 "x" pre

/-- The last call. -/
def ask : List Act := [.call 5 1 "x" "t", .go 5, .go 5, .go 5]

/-- While node 0 registers the actor, and after its record was written, a call of it begins on node 0, and does
not find it in the map. -/
def callActs : List Act :=
  (regX 0).take 10 ++ [.call 1 0 "x" "t", .go 1, .go 1, .go 1] ++ List.replicate 7 (.reg (.go 1)) ++
  (regX 0).drop 10 ++ ask

/-- C118 is violated by a call of the actor on its node during `Register`: the call takes the new record for a
stale one and removes it. `Register` still returns nil, and the actor is lost. -/
theorem C118_call_refuted : ∃ h s, (sys exCfg exFactory).Run h s ∧ Owned 0 "x" "t" h ∧ Lost h s :=
  ⟨_, _, run_final (as := callActs) (by decide +kernel), owned_of (by decide +kernel),
    registered_of 5 0 bx (by decide +kernel) (by decide +kernel) rfl (by decide +kernel), by decide +kernel,
    by decide +kernel, by decide +kernel, by decide +kernel, by decide +kernel,
    (final callActs).2.take 6, by decide +kernel,
    registered_of 5 0 bx (by decide +kernel) (by decide +kernel) rfl (by decide +kernel)⟩

/-- The same with a call of any actor of the type, as soon as the record is among those of the type. -/
def anyActs : List Act :=
  (regX 0).take 10 ++ [.call 1 0 "?" "t", .pick 1 (record exCfg 0 "x" "t"), .go 1, .go 1] ++
  List.replicate 7 (.reg (.go 1)) ++ (regX 0).drop 10 ++ ask

/-- C118 is violated by a call of any actor of the type (`"?"`) on the node during `Register`. -/
theorem C118_any_refuted : ∃ h s, (sys exCfg exFactory).Run h s ∧ Owned 0 "x" "t" h ∧
    (∀ g m t, .call g m "x" t ∈ h → m = 1) ∧ Lost h s :=
  ⟨_, _, run_final (as := anyActs) (by decide +kernel), owned_of (by decide +kernel),
    fun g m t h => by
      have h1 : (final anyActs).2.all (fun e => match e with
        | .call _ m x _ => x ≠ "x" || m = 1
        | _ => true) = true := by decide +kernel
      simpa using List.all_eq_true.1 h1 _ h,
    registered_of 5 0 bx (by decide +kernel) (by decide +kernel) rfl (by decide +kernel), by decide +kernel,
    by decide +kernel, by decide +kernel, by decide +kernel, by decide +kernel,
    (final anyActs).2.take 6, by decide +kernel,
    registered_of 5 0 bx (by decide +kernel) (by decide +kernel) rfl (by decide +kernel)⟩

/-- A call of a local actor of the type looks into the map before the actor is there, and picks its record after
`Register` has returned. -/
def localActs : List Act :=
  (regX 0).take 11 ++ [.call 1 0 "~" "t", .go 1] ++ (regX 0).drop 11 ++
  [.pick 1 (record exCfg 0 "x" "t"), .go 1] ++ List.replicate 7 (.reg (.go 1)) ++ ask

/-- C118 is violated by a call of a local actor of the type (`"~"`) that begins during `Register`: it removes the
record after `Register` has returned. -/
theorem C118_local_refuted : ∃ h s, (sys exCfg exFactory).Run h s ∧ Owned 0 "x" "t" h ∧ Lost h s ∧
    ∃ pre post, h = pre ++ .reg (.begin 1 (.clean 0 "x" 1)) :: post ∧ Registered 0 "x" pre :=
  ⟨_, _, run_final (as := localActs) (by decide +kernel), owned_of (by decide +kernel),
    ⟨registered_of 3 0 bx (by decide +kernel) (by decide +kernel) rfl (by decide +kernel), by decide +kernel,
    by decide +kernel, by decide +kernel, by decide +kernel, by decide +kernel,
    (final localActs).2.take 6, by decide +kernel,
    registered_of 3 0 bx (by decide +kernel) (by decide +kernel) rfl (by decide +kernel)⟩,
    (final localActs).2.take 4, (final localActs).2.drop 5, by decide +kernel,
    registered_of 3 0 bx (by decide +kernel) (by decide +kernel) rfl (by decide +kernel)⟩

/-- Node 1 unregisters the actor of node 0. -/
def ownerActs : List Act :=
  regX 0 ++ .reg (.start 1 (.unreg 1 "x" "t")) :: List.replicate 9 (.reg (.go 1)) ++ ask

/-- C118 is violated by `Unregister` of the id on a node that does not have the actor: it removes the record of
the live actor of another node, though nothing overlaps with its registration. -/
theorem C118_owner_refuted : ∃ h s, (sys exCfg exFactory).Run h s ∧ Apart 0 "x" "t" h ∧ Lost h s :=
  ⟨_, _, run_final (as := ownerActs) (by decide +kernel), apart_of (by decide +kernel),
    registered_of 2 0 bx (by decide +kernel) (by decide +kernel) rfl (by decide +kernel), by decide +kernel,
    by decide +kernel, by decide +kernel, by decide +kernel, by decide +kernel,
    (final ownerActs).2.take 5, by decide +kernel,
    registered_of 2 0 bx (by decide +kernel) (by decide +kernel) rfl (by decide +kernel)⟩

end Braid.Live
