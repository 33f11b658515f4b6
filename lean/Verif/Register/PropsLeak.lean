import Verif.Register.PropsBound

/-
C29 and C31: how far they can be violated. Unreachable actors collect without a bound, and the bound of `C31_bound` is reached.
-/
namespace Braid.Register
open Braid AddressBook Spec

/-- The rest of a `Register` whose checks are done: the commands, the `IDMap`, the actor, the map. -/
theorem reg_rest (s : State) (g n : Nat) (b : Builder) (hpc : s.pc g = .rPipe n b 0) :
    (sys exCfg exFactory).exec s (List.replicate 9 (.go g)) = some ({ s with
      W := setIdmap { s.W with redis := s.W.redis.pipe (registerCmds exCfg n b.ty b.id b.weight) } n b.id true
      map := upd s.map n (put (s.map n) b.id s.next)
      inst := upd s.inst s.next ⟨n, b.id, b.ty⟩
      alive := upd s.alive s.next true
      next := s.next + 1
      pc := upd s.pc g .idle }, [.created s.next ⟨n, b.id, b.ty⟩, .finish g .ok]) := by
  simp [List.replicate, Lts.exec, sys, step, stepGo, hpc, registerCmds, at_, again, Redis.pipe]

theorem reg_rest' (s : State) (g n : Nat) (b : Builder) (hpc : s.pc g = .rPipe n b 0) :
    ∃ s', (sys exCfg exFactory).exec s (List.replicate 9 (.go g)) =
      some (s', [.created s.next ⟨n, b.id, b.ty⟩, .finish g .ok]) ∧ s'.pc = upd s.pc g .idle ∧
      s'.map = upd s.map n (put (s.map n) b.id s.next) ∧ s'.next = s.next + 1 ∧ s'.alive = upd s.alive s.next true ∧
      (∀ m id, s'.W.idmap m id = if m = n ∧ id = b.id then true else s.W.idmap m id) ∧
      s'.W.redis.ids b.id = some (addrOf exCfg n b.ty b.id) :=
  ⟨_, reg_rest s g n b hpc, rfl, rfl, rfl, rfl, fun _ _ => rfl, by
    simp [setIdmap, Redis.pipe, registerCmds, Redis.run, AddressBook.set]⟩

/-- An `Unregister` of an actor that the node has and of which there is a record. -/
theorem unreg_all (s : State) (g n i : Nat) (id ty : String) (a : Addr) (hpc : s.pc g = .idle) (hmap : s.map n = [(id, i)])
    (hal : s.alive i = true) (hid : s.W.redis.ids id = some a) :
    (sys exCfg exFactory).exec s (.start g (.unreg n id ty) :: List.replicate 11 (.go g)) = some ({ s with
      W := setIdmap { s.W with redis := s.W.redis.pipe (unregisterCmds exCfg n a id 1) } n id false
      map := upd s.map n []
      alive := upd s.alive i false
      pc := upd s.pc g .idle }, [.begin g (.unreg n id ty), .exited i, .finish g .ok]) := by
  simp [List.replicate, Lts.exec, sys, step, stepGo, hpc, hmap, get, hal, hid, exFactory, del, unregisterCmds, at_, again, Redis.pipe]

/-- Two goroutines register "x" at the same time, and one of them unregisters it. -/
def round (i : Nat) : List Ev :=
  [.begin 0 (.reg 0 bx), .begin 1 (.reg 0 bx), .created i ⟨0, "x", "t"⟩, .finish 0 .ok, .created (i + 1) ⟨0, "x", "t"⟩,
    .finish 1 .ok, .begin 0 (.unreg 0 "x" "t"), .exited (i + 1), .finish 0 .ok]

theorem active_append : ∀ p q : List Ev, active q = [] → active (p ++ q) = active p
  | [], q, h => by simpa [active] using h
  | e :: p, q, h => by
    have ih := active_append p q h
    cases e <;> simp [active, ih]

theorem busy_append {κ : Type} [DecidableEq κ] (key : Op → Option κ) (k : κ) {h p : List Ev} (hh : activeOf h = []) :
    Spec.busy key k (h ++ p) = Spec.busy key k p := by
  simp only [Spec.busy, activeOf, List.reverse_append] at hh ⊢
  rw [active_append _ _ hh]

/-- After `m` rounds: nothing is in progress and nothing is registered. -/
structure Leak (m : Nat) (h : List Ev) (s : State) : Prop where
  run : (sys exCfg exFactory).Run h s
  pc0 : s.pc 0 = .idle
  pc1 : s.pc 1 = .idle
  map : s.map 0 = []
  idmap : s.W.idmap 0 "x" = false
  next : s.next = 2 * m
  live : ∀ i, i < m → Alive h (2 * i) ⟨0, "x", "t"⟩
  exits : ∀ i, .exited i ∈ h → i < 2 * m
  quiet : activeOf h = []
  most : AtMost idKey (0, "x") 2 h

theorem leak_round {m : Nat} {h : List Ev} {s : State} (l : Leak m h s) :
    ∃ s', Leak (m + 1) (h ++ round (2 * m)) s' := by
  -- both look into the map and the `IDMap`
  have e1 : (sys exCfg exFactory).exec s [.start 0 (.reg 0 bx), .start 1 (.reg 0 bx), .go 0, .go 1, .go 0, .go 1] = some
      ({ s with pc := upd (upd s.pc 0 (.rPipe 0 bx 0)) 1 (.rPipe 0 bx 0) }, [.begin 0 (.reg 0 bx), .begin 1 (.reg 0 bx)]) := by
    have c1 : ∀ p q : Pc, upd (upd (upd s.pc 0 p) 1 q) 0 = fun r => upd (upd s.pc 0 r) 1 q := fun p q => by
      funext r g; simp only [upd_apply]; grind
    simp [Lts.exec, sys, step, stepGo, l.pc0, l.pc1, l.map, l.idmap, bx, get, at_, again, upd_of_ne, c1]
  obtain ⟨s2, e2, pc2, map2, next2, alive2, idmap2, ids2⟩ := reg_rest' { s with
    pc := upd (upd s.pc 0 (.rPipe 0 bx 0)) 1 (.rPipe 0 bx 0) } 0 0 bx rfl
  dsimp only at pc2 map2 next2 alive2
  obtain ⟨s3, e3, pc3, map3, next3, alive3, idmap3, ids3⟩ := reg_rest' s2 1 0 bx (by rw [pc2]; rfl)
  have hm3 : s3.map 0 = [("x", s.next + 1)] := by
    rw [map3, upd_same, map2, upd_same, l.map, next2]; rfl
  obtain e4 := unreg_all s3 0 0 (s.next + 1) "x" "t" (addrOf exCfg 0 "t" "x") (by rw [pc3, pc2]; rfl) hm3
    (by rw [alive3, next2, upd_same]) ids3
  have run := l.run.exec (Lts.exec_append (Lts.exec_append (Lts.exec_append e1 e2) e3) e4)
  have hev : [Ev.begin 0 (.reg 0 bx), .begin 1 (.reg 0 bx)] ++ [.created s.next ⟨0, "x", "t"⟩, .finish 0 .ok] ++
      [.created s2.next ⟨0, "x", "t"⟩, .finish 1 .ok] ++ [.begin 0 (.unreg 0 "x" "t"), .exited (s.next + 1), .finish 0 .ok] =
      round (2 * m) := by
    rw [next2, l.next]; rfl
  refine ⟨_, ⟨hev ▸ run, rfl, ?_, rfl, ?_, ?_, ?_, ?_, ?_, ?_⟩⟩
  · show upd s3.pc 0 .idle 1 = _
    rw [pc3]; rfl
  · simp [setIdmap]
  · show s3.next = _
    rw [next3, next2, l.next]; omega
  · intro i hi
    by_cases hm : i = m
    · subst hm
      refine ⟨by simp [round], fun hx => ?_⟩
      rcases List.mem_append.1 hx with hx | hx
      · have := l.exits _ hx; omega
      · simp [round] at hx
    · obtain ⟨a1, a2⟩ := l.live i (by omega)
      exact ⟨List.mem_append_left _ a1, by simp [a2, round]; omega⟩
  · intro i hi
    rcases List.mem_append.1 hi with hx | hx
    · have := l.exits _ hx; omega
    · simp [round] at hx; omega
  · simp only [activeOf, List.reverse_append]
    rw [active_append _ _ l.quiet]
    rfl
  · intro pre post he
    rcases List.append_eq_append_iff.1 he with ⟨t, rfl, ht⟩ | ⟨t, ht, -⟩
    · rw [busy_append _ _ l.quiet]
      have hr : most idKey (0, "x") 2 (round (2 * m)) = true := rfl
      exact most_sound hr t post ht
    · exact l.most pre t ht

/-- **C29** is violated without a bound: if never more than two operations on an id of a node are in progress, and everything that
was registered is unregistered again, there may still be any number of live actors with this id on the node, which nothing
can reach or stop. -/
theorem C29_leak_refuted (m : Nat) : ∃ h s, (sys exCfg exFactory).Run h s ∧ AtMost idKey (0, "x") 2 h ∧ activeOf h = [] ∧
    s.map 0 = [] ∧ s.W.idmap 0 "x" = false ∧ ∀ i, i < m → Alive h (2 * i) ⟨0, "x", "t"⟩ := by
  have : ∃ h s, Leak m h s := by
    induction m with
    | zero =>
      exact ⟨[], init, .init, rfl, rfl, rfl, rfl, rfl, by omega, by simp, rfl, fun pre post h => by
        have := List.append_eq_nil_iff.1 h.symm
        rw [this.1]; simp [Spec.busy, activeOf, active]⟩
    | succ m ih =>
      obtain ⟨h, s, l⟩ := ih
      obtain ⟨s', l'⟩ := leak_round l
      exact ⟨_, s', l'⟩
  obtain ⟨h, s, l⟩ := this
  exact ⟨h, s, l.run, l.most, l.quiet, l.map, l.idmap, l.live⟩

/-- The actor number `i` of the node-unique type "t", of which there may be `K` in the cluster. -/
def uniq (K i : Nat) : Builder := ⟨nm i, "t", 1, K, true⟩

/-- The goroutines below `c` have called `Register` on node 0 and made all checks; those below `f` have finished. -/
structure Crowd (K c f : Nat) (h : List Ev) (s : State) : Prop where
  run : (sys exCfg exFactory).Run h s
  le : f ≤ c
  most : c ≤ K
  idle : ∀ g, c ≤ g → s.pc g = .idle
  pipe : ∀ g, f ≤ g → g < c → s.pc g = .rPipe 0 (uniq K g) 0
  fresh : f = 0 → s.map 0 = [] ∧ (∀ id, s.W.idmap 0 id = false) ∧ s.W.redis.tys "t" = []
  next : s.next = f
  live : ∀ i, i < f → .created i ⟨0, nm i, "t"⟩ ∈ h
  exits : ∀ i, .exited i ∉ h
  begun : ∀ g o, Ev.begin g o ∈ h → g < c ∧ o = .reg 0 (uniq K g)
  busy : Spec.busy nodeTypeKey (0, "t") h + f ≤ c
  atMost : AtMost nodeTypeKey (0, "t") K h
  excl : Exclusive idKey h

theorem crowd_more {K c : Nat} {h : List Ev} {s : State} (l : Crowd K c 0 h s) (hc : c < K) :
    ∃ h' s', Crowd K (c + 1) 0 h' s' := by
  obtain ⟨m0, i0, t0⟩ := l.fresh rfl
  have e1 : (sys exCfg exFactory).exec s [.start c (.reg 0 (uniq K c)), .go c, .go c, .go c, .go c] = some
      ({ s with pc := upd s.pc c (.rPipe 0 (uniq K c) 0) }, [.begin c (.reg 0 (uniq K c))]) := by
    have h1 : ¬ K = 0 := by omega
    have h2 : ¬ K ≤ 0 := by omega
    simp [Lts.exec, sys, step, stepGo, l.idle c (Nat.le_refl _), m0, i0, uniq, get, at_, again, nm_ne, h1,
      getActorTypeCount, t0]
  have hb : Spec.busy nodeTypeKey (0, "t") (h ++ [.begin c (.reg 0 (uniq K c))]) = Spec.busy nodeTypeKey (0, "t") h + 1 := by
    simp [Spec.busy, activeOf_concat, nodeTypeKey, uniq]
  have hbs := l.busy
  refine ⟨_, _, ⟨l.run.exec e1, by omega, by omega, ?_, ?_, fun _ => l.fresh rfl, l.next, by omega, ?_, ?_, by omega,
    atMost_concat l.atMost (by omega), excl_concat l.excl ?_⟩⟩
  · intro g hg
    dsimp only
    rw [upd_of_ne _ _ (by omega)]
    exact l.idle g (by omega)
  · intro g h1 h2
    dsimp only
    by_cases he : g = c
    · subst he; rw [upd_same]
    · rw [upd_of_ne _ _ he]; exact l.pipe g h1 (by omega)
  · intro i hi
    simp [l.exits] at hi
  · intro g o hm
    rcases List.mem_append.1 hm with hm | hm
    · have := l.begun g o hm; exact ⟨by omega, this.2⟩
    · simp only [List.mem_singleton, Ev.begin.injEq] at hm
      obtain ⟨rfl, rfl⟩ := hm
      exact ⟨by omega, rfl⟩
  · intro g o he p hp k hk
    cases he
    obtain ⟨g', o'⟩ := p
    obtain ⟨h1, rfl⟩ := l.begun g' o' (by simpa using active_begun _ g' o' hp)
    simp only [idKey, Option.some.injEq] at hk ⊢
    rw [← hk]
    intro h2
    have := nm_inj (congrArg Prod.snd (Option.some.inj h2))
    omega

theorem crowd_finish {K c f : Nat} {h : List Ev} {s : State} (l : Crowd K c f h s) (hc : f < c) :
    ∃ h' s', Crowd K c (f + 1) h' s' := by
  have hpc := l.pipe f (Nat.le_refl _) hc
  obtain ⟨s2, e2, pc2, map2, next2, alive2, idmap2, ids2⟩ := reg_rest' s f 0 (uniq K f) hpc
  have hin : (f, Op.reg 0 (uniq K f)) ∈ activeOf h := (active_iff l.run f _).2 (by rw [hpc]; rfl)
  have hb1 : Spec.busy nodeTypeKey (0, "t") (h ++ [.created f ⟨0, nm f, "t"⟩]) = Spec.busy nodeTypeKey (0, "t") h := by
    simp [Spec.busy, activeOf_concat]
  have hb2 : Spec.busy nodeTypeKey (0, "t") (h ++ [.created f ⟨0, nm f, "t"⟩] ++ [.finish f .ok]) + 1 ≤
      Spec.busy nodeTypeKey (0, "t") h := by
    simp only [Spec.busy, activeOf_concat]
    exact countP_filter_lt hin (by simp [nodeTypeKey, uniq]) (by simp)
  have hbs := l.busy
  have hm := l.atMost h [] (by simp)
  have he : h ++ [Ev.created s.next ⟨0, (uniq K f).id, (uniq K f).ty⟩, .finish f .ok] =
      h ++ [.created f ⟨0, nm f, "t"⟩] ++ [.finish f .ok] := by
    rw [l.next]; simp [uniq]
  have run := l.run.exec e2
  rw [he] at run
  refine ⟨_, _, ⟨run, by omega, l.most, ?_, ?_, by omega, by rw [next2, l.next], ?_, ?_, ?_, by omega,
    atMost_concat (atMost_concat l.atMost (by omega)) (by omega),
    excl_concat (excl_concat l.excl (fun _ _ h => by cases h)) (fun _ _ h => by cases h)⟩⟩
  · intro g hg
    rw [pc2, upd_of_ne _ _ (by omega)]
    exact l.idle g hg
  · intro g h1 h2
    rw [pc2, upd_of_ne _ _ (by omega)]
    exact l.pipe g (by omega) h2
  · intro i hi
    by_cases hf : i = f
    · subst hf; simp
    · have := l.live i (by omega)
      simp [this]
  · intro i hi
    simp [l.exits] at hi
  · intro g o hm
    exact l.begun g o (by simpa using hm)

/-- **C31** is violated as far as `C31_bound` allows: for every `K`, if `K` goroutines register actors of a node-unique type on
a node at the same time, under different ids and with a limit of `K`, all may succeed. -/
theorem C31_tight_refuted (K : Nat) : ∃ h s, (sys exCfg exFactory).Run h s ∧
    (∀ g o, .begin g o ∈ h → ∃ b, o = .reg 0 b ∧ b.ty = "t" ∧ b.unique = true ∧ b.limit = (K : Int)) ∧
    Exclusive idKey h ∧ AtMost nodeTypeKey (0, "t") K h ∧ ∀ i, i < K → Alive h i ⟨0, nm i, "t"⟩ := by
  have a : ∀ c, c ≤ K → ∃ h s, Crowd K c 0 h s := by
    intro c
    induction c with
    | zero =>
      exact fun _ => ⟨[], init, .init, Nat.le_refl _, by omega, fun _ _ => rfl, fun _ _ h => by omega, fun _ => ⟨rfl, fun _ => rfl, rfl⟩,
        rfl, by omega, by simp, by simp, by simp [Spec.busy, activeOf, active], fun pre post h => by
          have := List.append_eq_nil_iff.1 h.symm
          rw [this.1]; simp [Spec.busy, activeOf, active], fun pre _ _ _ h => by simp at h⟩
    | succ c ih =>
      intro hc
      obtain ⟨h, s, l⟩ := ih (by omega)
      exact crowd_more l (by omega)
  have b : ∀ f, f ≤ K → ∃ h s, Crowd K K f h s := by
    intro f
    induction f with
    | zero => exact fun _ => a K (Nat.le_refl _)
    | succ f ih =>
      intro hf
      obtain ⟨h, s, l⟩ := ih (by omega)
      exact crowd_finish l (by omega)
  obtain ⟨h, s, l⟩ := b K (Nat.le_refl _)
  refine ⟨h, s, l.run, ?_, l.excl, l.atMost, fun i hi => ⟨l.live i hi, l.exits i⟩⟩
  intro g o hm
  obtain ⟨-, rfl⟩ := l.begun g o hm
  exact ⟨_, rfl, rfl, rfl, rfl⟩

end Braid.Register
