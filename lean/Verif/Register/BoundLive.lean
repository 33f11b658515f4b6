import Verif.Register.Bound

/-
Bounds on the number of live actors (C30, C31).
-/
namespace Braid.Register
open AddressBook Spec

variable {cfg : Nat → NodeCfg} {factory : Nat → String → Option Int}

/-! ### Node-unique types -/

/-- `Register` has looked for actors of type `ty` on node `n`, and not yet made its own. -/
def pasts (n : Nat) (ty : String) (p : Pc) : Bool := decide (p.pastTy = some (n, ty))

/-- `Register` has made an actor of type `ty` on node `n`. -/
def inserts (n : Nat) (ty : String) : Pc → Bool
  | .rInsert m b _ => decide (m = n ∧ b.ty = ty)
  | _ => false

/-- Before or after making its actor. -/
def both (n : Nat) (ty : String) (p : Pc) : Bool := pasts n ty p || inserts n ty p

theorem both_inOp {n : Nat} {ty : String} (p : Pc) (h : both n ty p = true) : inOp nodeTypeKey (n, ty) p = true := by
  cases p <;> simp_all [both, pasts, inserts, inOp, Pc.pastTy, Pc.op, nodeTypeKey]

theorem cnt_both {n : Nat} {ty : String} (f : Nat → Pc) (N : Nat) :
    cnt f N (both n ty) = cnt f N (pasts n ty) + cnt f N (inserts n ty) := by
  induction N with
  | zero => simp [cnt_zero]
  | succ N ih =>
    rw [cnt_succ, cnt_succ, cnt_succ, ih]
    have : (if both n ty (f N) = true then 1 else 0) =
        (if pasts n ty (f N) = true then 1 else 0) + (if inserts n ty (f N) = true then 1 else 0) := by
      cases f N <;> simp [both, pasts, inserts, Pc.pastTy]
    omega

/-- What a step does to the actor objects. -/
theorem alive_step {s : State} {a : Act} {s' : State} {evs : List Ev} (hn : InvN s)
    (hs : step cfg factory s a = some (s', evs)) :
    (∀ i, s'.alive i = true → s.alive i = true ∧ s'.inst i = s.inst i) ∨
    ∃ n b, s.pc a.who = .rBuild n b ∧ s'.pc a.who = .rInsert n b s.next ∧ s'.alive = upd s.alive s.next true ∧
      s'.inst = upd s.inst s.next ⟨n, b.id, b.ty⟩ := by
  have hd := hn.dead s.next (Nat.le_refl _)
  rg_cases hs
  all_goals first
    | (left; intro i hi; simp only [upd_apply] at hi; first | exact ⟨hi, rfl⟩ | (split at hi <;> grind))
    | (right; rename_i n b hpc; exact ⟨n, b, hpc, by simp only [Act.who, upd_same], rfl, rfl⟩)

/-- Live actors of a type on a node. -/
def Of (n : Nat) (ty : String) (s : State) (i : Nat) : Prop :=
  s.alive i = true ∧ (s.inst i).node = n ∧ (s.inst i).ty = ty

theorem past_step {n : Nat} {ty : String} {s : State} {a : Act} {s' : State} {evs : List Ev}
    (hu : ∀ g b, s.pc g = .rMap n b → b.ty = ty → b.unique = true ∧ b.limit ≠ 0)
    (hs : step cfg factory s a = some (s', evs)) (h1 : pasts n ty (s.pc a.who) = false)
    (h2 : pasts n ty (s'.pc a.who) = true) :
    (∃ b, s.pc a.who = .rUnique n b ∧ b.ty = ty ∧ (s.map n).any (fun p => (s.inst p.2).ty = ty) = false) := by
  rg_cases hs
  all_goals simp only [upd_same, Act.who, pasts, decide_eq_true_eq] at h1 h2 ⊢
  all_goals grind [Pc.pastTy]

theorem unique_step {n : Nat} {ty : String} {K N : Nat} {h : List Ev} {s : State} {a : Act} {s' : State}
    {evs : List Ev} (hr : (sys cfg factory).Run h s) (hid : InvId s)
    (hu : ∀ g b, s.pc g = .rMap n b → b.ty = ty → b.unique = true ∧ b.limit ≠ 0)
    (hK : busy nodeTypeKey (n, ty) h ≤ K) (hN : Below N (h ++ evs))
    (hi : ∀ l : List Nat, l.Nodup → (∀ i ∈ l, Of n ty s i) → l.length + cnt s.pc N (pasts n ty) ≤ K)
    (hs : step cfg factory s a = some (s', evs)) :
    ∀ l : List Nat, l.Nodup → (∀ i ∈ l, Of n ty s' i) → l.length + cnt s'.pc N (pasts n ty) ≤ K := by
  intro l hl hm
  have hn := invN_run hr
  have hw := who_below hr hs hN
  have hc := cnt_upd s.pc N a.who (s'.pc a.who) (pasts n ty) hw
  rw [← pc_step hs] at hc
  rcases alive_step hn hs with hal | ⟨m, b, h1, h2, h3, h4⟩
  · have hm' : ∀ i ∈ l, Of n ty s i := fun i hi => by
      obtain ⟨h1, h2, h3⟩ := hm i hi
      obtain ⟨h4, h5⟩ := hal i h1
      rw [h5] at h2 h3
      exact ⟨h4, h2, h3⟩
    have h0 := hi l hl hm'
    by_cases hp : pasts n ty (s.pc a.who) = true
    · rw [hp] at hc; simp only [if_true] at hc; split at hc <;> omega
    · by_cases hq : pasts n ty (s'.pc a.who) = true
      · -- the check for actors of the type was passed
        simp only [Bool.not_eq_true] at hp
        obtain ⟨b, hb, hty, hany⟩ := past_step hu hs hp hq
        have hlt : l.length ≤ cnt s.pc N (inserts n ty) := by
          have hch : ∀ i ∈ l, ∃ g, g < N ∧ ∃ b, s.pc g = .rInsert n b i ∧ b.ty = ty := fun i hi => by
            obtain ⟨h1, h2, h3⟩ := hm' i hi
            rcases hid.cand i h1 with h4 | ⟨g, b, h4⟩
            · rw [h2] at h4
              have := get_any (f := fun i => decide ((s.inst i).ty = ty)) hany h4
              simp [h3] at this
            · rw [h2] at h4
              refine ⟨g, ?_, b, h4, ?_⟩
              · exact hN g (.reg n b) (List.mem_append_left _ (begun hr (by rw [h4]; rfl)))
              · have := (hn.ins g n b i h4).2
                rw [this] at h3; exact h3
          -- the actors made by the goroutines that are about to insert theirs
          have hsub : l ⊆ ((List.range N).filter fun g => inserts n ty (s.pc g)).map
              fun g => match s.pc g with | .rInsert _ _ i => i | _ => 0 := by
            intro i hi
            obtain ⟨g, hg, b, hb, hty⟩ := hch i hi
            exact List.mem_map.2 ⟨g, List.mem_filter.2 ⟨List.mem_range.2 hg, by simp [hb, inserts, hty]⟩, by simp [hb]⟩
          have := (List.subperm_of_subset hl hsub).length_le
          rw [List.length_map] at this
          unfold cnt
          rw [List.countP_eq_length_filter]
          exact this
        have h5 : cnt s.pc N (both n ty) < cnt s.pc N (inOp nodeTypeKey (n, ty)) :=
          cnt_lt both_inOp hw (by rw [hb]; rfl) (by rw [hb]; simp [inOp, Pc.op, nodeTypeKey, hty])
        rw [cnt_both] at h5
        have h6 := cnt_busy (key := nodeTypeKey) (k := (n, ty)) hr N
        rw [hp, hq] at hc
        simp only [Bool.false_eq_true, if_false, if_true] at hc
        omega
      · simp only [hp, hq] at hc; simp only [Bool.false_eq_true, if_false] at hc; omega
  · -- an actor is made
    rw [h1, h2] at hc
    have hq : pasts n ty (.rInsert m b s.next) = false := by simp [pasts, Pc.pastTy]
    rw [hq] at hc
    have hold : ∀ i ∈ l, i ≠ s.next → Of n ty s i := fun i hi hne => by
      obtain ⟨h5, h6, h7⟩ := hm i hi
      rw [h3, upd_of_ne _ _ hne] at h5
      rw [h4, upd_of_ne _ _ hne] at h6 h7
      exact ⟨h5, h6, h7⟩
    by_cases hmem : s.next ∈ l
    · obtain ⟨h5, h6, h7⟩ := hm _ hmem
      rw [h4, upd_same] at h6 h7
      have hp : pasts n ty (.rBuild m b) = true := by
        simp only at h6 h7; simp [pasts, Pc.pastTy, h6, h7]
      rw [hp] at hc
      have := hi (l.erase s.next) (hl.erase _) (fun i hi =>
        hold i (List.mem_of_mem_erase hi) (by
          intro he; subst he
          exact (List.Nodup.not_mem_erase hl) hi))
      rw [List.length_erase_of_mem hmem] at this
      have : 0 < l.length := List.length_pos_of_mem hmem
      simp only [Bool.false_eq_true, if_false, if_true] at hc
      omega
    · have := hi l hl (fun i hi => hold i hi (by intro he; subst he; exact hmem hi))
      split at hc <;> simp_all <;> omega

theorem unique_run {n : Nat} {ty : String} {K N : Nat} {h : List Ev} {s : State}
    (hr : (sys cfg factory).Run h s) (hN : Below N h) (hx : Exclusive idKey h) (hK : AtMost nodeTypeKey (n, ty) K h)
    (hu : ∀ g b, Ev.begin g (.reg n b) ∈ h → b.ty = ty → b.unique = true ∧ b.limit ≠ 0) :
    ∀ l : List Nat, l.Nodup → (∀ i ∈ l, Of n ty s i) → l.length + cnt s.pc N (pasts n ty) ≤ K := by
  revert hN hx hK hu
  refine hr.invariant (P := fun h s => Below N h → Exclusive idKey h → AtMost nodeTypeKey (n, ty) K h →
    (∀ g b, Ev.begin g (.reg n b) ∈ h → b.ty = ty → b.unique = true ∧ b.limit ≠ 0) →
    ∀ l : List Nat, l.Nodup → (∀ i ∈ l, Of n ty s i) → l.length + cnt s.pc N (pasts n ty) ≤ K) ?_ ?_
  · intro _ _ _ _ l _ hm
    have : cnt (fun _ => Pc.idle) N (pasts n ty) = 0 := by
      unfold cnt; rw [List.countP_eq_zero]; intro _ _; simp [pasts, Pc.pastTy]
    cases l with
    | nil => simp only [sys, init, this, List.length_nil]; omega
    | cons i l => have := (hm i (by simp)).1; simp [sys, init] at this
  · intro h s a s' evs hr hi hs hN hx hK hu
    have hu' := fun g b hb => hu g b (List.mem_append_left _ hb)
    have hK' := atMost_left hK
    have hx' := excl_prefix hx
    exact unique_step hr (invId_run hr hx') (fun g b hg => hu' g b (begun hr (by rw [hg]; rfl)))
      (hK' h [] (by simp)) hN (hi (below_left hN) hx' hK' hu') hs

/-! ### Live actors have records -/

/-- No live actor has the id. -/
def Gone (s : State) (id : String) : Prop := ∀ i, s.alive i = true → (s.inst i).id ≠ id

/-- What is known where a goroutine is. -/
def Good (cfg : Nat → NodeCfg) (s : State) : Pc → Prop
  | .rPipe n b k => 2 ≤ k → addrOf cfg n b.ty b.id ∈ s.W.redis.tys b.ty
  | .rIdmap n b => addrOf cfg n b.ty b.id ∈ s.W.redis.tys b.ty
  | .rBuild n b => addrOf cfg n b.ty b.id ∈ s.W.redis.tys b.ty
  | .uFactory _ id _ => Gone s id
  | .uGet o n id _ => (∃ ty, o = .unreg n id ty) ∧ Gone s id
  | .uPipe o n a id _ _ => a.actorId = id ∧ (∃ ty, o = .unreg n id ty) ∧ Gone s id
  | _ => True

/-- The id that an operation concerns. -/
def Pc.ident (p : Pc) : Option String := (p.op.bind idKey).map Prod.snd

theorem good_mono {s s' : State} {p : Pc} (h : Good cfg s p)
    (h1 : ∀ n ty id, p.ident = some id → addrOf cfg n ty id ∈ s.W.redis.tys ty → addrOf cfg n ty id ∈ s'.W.redis.tys ty)
    (h2 : ∀ id, p.ident = some id → Gone s id → Gone s' id) : Good cfg s' p := by
  cases p with
  | rPipe n b k => exact fun hk => h1 _ _ _ rfl (h hk)
  | rIdmap n b => exact h1 _ _ _ rfl h
  | rBuild n b => exact h1 _ _ _ rfl h
  | uFactory n id ty => exact h2 _ rfl h
  | uGet o n id w => obtain ⟨⟨ty, rfl⟩, h⟩ := h; exact ⟨⟨ty, rfl⟩, h2 _ rfl h⟩
  | uPipe o n a id w k => obtain ⟨h3, ⟨ty, rfl⟩, h⟩ := h; exact ⟨h3, ⟨ty, rfl⟩, h2 _ rfl h⟩
  | _ => trivial

/-- Live actors of nodes that own their ids have records. -/
structure InvR (cfg : Nat → NodeCfg) (owner : String → Nat) (s : State) : Prop where
  ids : ∀ id a, s.W.redis.ids id = some a → a.actorId = id
  node : ∀ i, s.alive i = true → owner (s.inst i).id = (s.inst i).node
  own : ∀ i, s.alive i = true → addrOf cfg (s.inst i).node (s.inst i).ty (s.inst i).id ∈ s.W.redis.tys (s.inst i).ty
  good : ∀ g, Good cfg s (s.pc g)

/-- Steps that change neither Redis nor the actors. -/
theorem invR_quiet {owner : String → Nat} {s s' : State} {g : Nat} {p : Pc} (hi : InvR cfg owner s)
    (h1 : s'.W.redis = s.W.redis) (h2 : s'.alive = s.alive) (h3 : s'.inst = s.inst) (h4 : s'.pc = upd s.pc g p)
    (hp : Good cfg s p) : InvR cfg owner s' := by
  refine ⟨by rw [h1]; exact hi.ids, by rw [h2, h3]; exact hi.node, by rw [h1, h2, h3]; exact hi.own, fun g' => ?_⟩
  refine good_mono (s := s) ?_ (fun _ _ _ _ h => by rw [h1]; exact h) (fun _ _ h => by unfold Gone; rw [h2, h3]; exact h)
  rw [h4, upd_apply]
  split
  · exact hp
  · exact hi.good g'

theorem reg_keeps {n : Nat} {ty id : String} {w : Int} {k : Nat} {c : Cmd}
    (hc : (registerCmds cfg n ty id w)[k]? = some c) (r : Redis) :
    (∀ t a, a ∈ r.tys t → a ∈ (r.run c).tys t) ∧ (k = 1 → addrOf cfg n ty id ∈ (r.run c).tys ty) ∧
    ((∀ id a, r.ids id = some a → a.actorId = id) → ∀ id a, (r.run c).ids id = some a → a.actorId = id) := by
  rcases k with _ | _ | _ | _ | _ | k <;> simp [registerCmds] at hc <;> subst hc <;>
    simp only [Redis.run, AddressBook.set] <;> refine ⟨?_, ?_, ?_⟩ <;> grind [addrOf]

theorem unreg_keeps {n : Nat} {a : Addr} {id : String} {w : Int} {k : Nat} {c : Cmd}
    (hc : (unregisterCmds cfg n a id w)[k]? = some c) (r : Redis) :
    (∀ t b, b ∈ r.tys t → b ≠ a → b ∈ (r.run c).tys t) ∧
    ((∀ id a, r.ids id = some a → a.actorId = id) → ∀ id a, (r.run c).ids id = some a → a.actorId = id) := by
  rcases k with _ | _ | _ | _ | k <;> simp [unregisterCmds] at hc <;> subst hc <;>
    simp only [Redis.run, AddressBook.set] <;> refine ⟨?_, ?_⟩ <;> grind

theorem invR_step {owner : String → Nat} {s : State} {a : Act} {s' : State} {evs : List Ev} (hn : InvN s)
    (hx : Ex idKey s) (hid : InvId s) (ho : ∀ g n id, (s.pc g).op.bind idKey = some (n, id) → owner id = n)
    (hcl : ∀ g n id w, a ≠ .start g (.clean n id w))
    (hi : InvR cfg owner s) (hs : step cfg factory s a = some (s', evs)) : InvR cfg owner s' := by
  have e1 : ∀ g g' id, (s.pc g).ident = some id → (s.pc g').ident = some id → g = g' := by
    intro g g' id h1 h2
    simp only [Pc.ident, Option.map_eq_some_iff] at h1 h2
    obtain ⟨⟨n, x⟩, h1, rfl⟩ := h1
    obtain ⟨⟨m, y⟩, h2, h3⟩ := h2
    simp only at h3; subst h3
    have h4 := ho g n y h1
    have h5 := ho g' m y h2
    rw [h4] at h5; subst h5
    exact hx g g' _ h1 h2
  have e2 : ∀ g n id i, (s.pc g).op.bind idKey = some (n, id) → s.alive i = true → (s.inst i).id = id →
      (∀ m b j, s.pc g ≠ .rInsert m b j) → get (s.map n) id = some i := by
    intro g n id i h1 h2 h3 h4
    have h5 := hi.node i h2
    rw [h3, ho g n id h1] at h5
    rcases hid.cand i h2 with h6 | ⟨g', b, h6⟩
    · rw [← h5, h3] at h6; exact h6
    · have h7 := (hn.ins g' _ b i h6).2
      have h8 : g = g' := by
        refine e1 g g' id ?_ ?_
        · simp [Pc.ident, h1]
        · rw [h6]; simp only [Pc.ident, Pc.op, Option.bind_some, idKey, Option.map_some]; rw [← h3, h7]
      subst h8
      exact absurd h6 (h4 _ _ _)
  have m2 : ∀ g n id ty, s.pc g = .uMap n id ty → get (s.map n) id = none → Gone s id := by
    intro g n id ty h h0 i h1 h2
    rw [e2 g n id i (by rw [h]; rfl) h1 h2 (by rw [h]; intros; simp)] at h0
    cases h0
  have m3 : ∀ g n id ty, s.pc g = .uDel n id ty → Gone s id := by
    intro g n id ty h i h1 h2
    have := hid.del g n id ty h i (e2 g n id i (by rw [h]; rfl) h1 h2 (by rw [h]; intros; simp))
    rw [this] at h1; cases h1
  cases a with
  | start g o =>
    simp only [step] at hs
    repeat' (split at hs)
    all_goals cases hs
    · exact invR_quiet (g := g) hi rfl rfl rfl rfl trivial
    · exact invR_quiet (g := g) hi rfl rfl rfl rfl trivial
    · exact absurd rfl (hcl _ _ _ _)
  | fail g =>
    simp only [step, stepFail, ret] at hs
    repeat' (split at hs)
    all_goals cases hs
    all_goals exact invR_quiet (g := g) hi rfl rfl rfl rfl trivial
  | go g =>
    have hg := hi.good g
    cases hpc : s.pc g with
    | rPipe n b k =>
      rw [hpc] at hg
      simp only [step, stepGo, hpc, at_] at hs
      split at hs
      · rename_i c hc
        cases hs
        obtain ⟨r1, r2, r3⟩ := reg_keeps hc s.W.redis
        refine ⟨r3 hi.ids, hi.node, fun i h => r1 _ _ (hi.own i h), fun g' => ?_⟩
        dsimp only
        rw [upd_apply]
        split
        · intro hk
          by_cases h1 : k = 1
          · exact r2 h1
          · exact r1 _ _ (hg (by omega))
        · exact good_mono (hi.good g') (fun _ _ _ _ h => r1 _ _ h) (fun _ _ h => h)
      · rename_i hc
        cases hs
        exact invR_quiet (g := g) hi rfl rfl rfl rfl (hg (registerCmds_none hc))
    | uPipe o n a id w k =>
      rw [hpc] at hg
      simp only [step, stepGo, hpc, at_] at hs
      split at hs
      · rename_i c hc
        cases hs
        obtain ⟨r1, r2⟩ := unreg_keeps hc s.W.redis
        obtain ⟨g1, ⟨ty, rfl⟩, g2⟩ := hg
        refine ⟨r2 hi.ids, hi.node, fun i h => r1 _ _ (hi.own i h) ?_, fun g' => ?_⟩
        · intro he
          exact g2 i h (by rw [← g1, ← he]; rfl)
        · dsimp only
          rw [upd_apply]
          split
          · exact ⟨g1, ⟨ty, rfl⟩, g2⟩
          · rename_i hne
            refine good_mono (hi.good g') (fun m t x hx h => r1 _ _ h ?_) (fun _ _ h => h)
            intro he
            refine hne (e1 g' g x hx ?_)
            have : x = id := by rw [← g1, ← he]; rfl
            rw [hpc, this]; rfl
      · cases hs
        exact invR_quiet (g := g) hi rfl rfl rfl rfl trivial
    | rBuild n b =>
      rw [hpc] at hg
      simp only [step, stepGo, hpc] at hs
      cases hs
      have hd := hn.dead s.next (Nat.le_refl _)
      have hb : owner b.id = n := ho g n b.id (by rw [hpc]; rfl)
      refine ⟨hi.ids, fun i h => ?_, fun i h => ?_, fun g' => ?_⟩
      · dsimp only at h ⊢
        by_cases he : i = s.next
        · subst he; rw [upd_same]; exact hb
        · rw [upd_of_ne _ _ he] at h ⊢; exact hi.node i h
      · dsimp only at h ⊢
        by_cases he : i = s.next
        · subst he; rw [upd_same]; exact hg
        · rw [upd_of_ne _ _ he] at h ⊢; exact hi.own i h
      · dsimp only
        rw [upd_apply]
        split
        · trivial
        · rename_i hne
          refine good_mono (hi.good g') (fun _ _ _ _ h => h) (fun id hid' h i hi' => ?_)
          dsimp only at hi' ⊢
          by_cases he : i = s.next
          · subst he; rw [upd_same]
            intro h1
            exact hne (e1 g' g id hid' (by rw [hpc, ← h1]; rfl))
          · rw [upd_of_ne _ _ he] at hi' ⊢; exact h i hi'
    | uExit n id ty i =>
      simp only [step, stepGo, hpc, ret] at hs
      split at hs
      · cases hs
        have hal : ∀ j, upd s.alive i false j = true → s.alive j = true := by
          intro j hj
          rw [upd_apply] at hj
          split at hj
          · cases hj
          · exact hj
        refine ⟨hi.ids, fun j h => hi.node j (hal j h), fun j h => hi.own j (hal j h), fun g' => ?_⟩
        dsimp only
        rw [upd_apply]
        split
        · trivial
        · exact good_mono (hi.good g') (fun _ _ _ _ h => h) (fun _ _ h j hj => h j (hal j hj))
      · cases hs
        exact invR_quiet (g := g) hi rfl rfl rfl rfl trivial
    | idle => simp only [step, stepGo, hpc] at hs; cases hs
    | _ =>
      have q2 := m2 g
      have q3 := m3 g
      rw [hpc] at hg q2 q3
      simp only [step, stepGo, hpc, ret, at_] at hs
      repeat' (split at hs)
      all_goals cases hs
      all_goals refine invR_quiet (g := g) hi rfl rfl rfl rfl ?_
      all_goals first
        | trivial
        | exact hg
        | exact q2 _ _ _ rfl (by assumption)
        | exact q3 _ _ _ rfl
        | exact ⟨⟨_, rfl⟩, hg⟩
        | exact ⟨hi.ids _ _ (by assumption), hg⟩
        | (intro h; omega)

theorem invR_run {h : List Ev} {s : State} (hr : (sys cfg factory).Run h s) (hx : Exclusive idKey h)
    {owner : String → Nat} (ho : ∀ g o, Ev.begin g o ∈ h → ∃ n id, idKey o = some (n, id) ∧ owner id = n) :
    InvR cfg owner s := by
  revert hx ho
  refine hr.invariant (P := fun h s => Exclusive idKey h →
    (∀ g o, Ev.begin g o ∈ h → ∃ n id, idKey o = some (n, id) ∧ owner id = n) → InvR cfg owner s) ?_ ?_
  · intro _ _
    exact ⟨fun _ _ h => (by cases h), fun _ h => (by cases h), fun _ h => (by cases h), fun _ => trivial⟩
  · intro h s a s' evs hr hi hs hx ho
    have hx' := excl_prefix hx
    have ho' := fun g o hb => ho g o (List.mem_append_left _ hb)
    refine invR_step (invN_run hr) (exclusive_ex hr hx') (invId_run hr hx') ?_ ?_ (hi hx' ho') hs
    · intro g n id hg
      rw [Option.bind_eq_some_iff] at hg
      obtain ⟨o, h1, h2⟩ := hg
      obtain ⟨m, x, h3, h4⟩ := ho' g o (begun hr h1)
      rw [h2] at h3; cases h3
      exact h4
    · rintro g n id w rfl
      replace hs : step cfg factory s (.start g (.clean n id w)) = some (s', evs) := hs
      simp only [step] at hs
      split at hs
      · cases hs
        obtain ⟨m, x, h3, h4⟩ := ho g (.clean n id w) (by simp)
        cases h3
      · cases hs

/-- Live actors of a type are not more than its records. -/
theorem live_le {h : List Ev} {s : State} (hr : (sys cfg factory).Run h s) (hx : Exclusive idKey h)
    {owner : String → Nat} (hi : InvR cfg owner s) {ty : String} {l : List Nat} (hl : l.Nodup)
    (hm : ∀ i ∈ l, s.alive i = true ∧ (s.inst i).ty = ty) : l.length ≤ (s.W.redis.tys ty).length := by
  have hu := @invId_unique s (invN_run hr) (exclusive_ex hr hx) (invId_run hr hx)
  rw [← List.length_map (f := fun i => addrOf cfg (s.inst i).node (s.inst i).ty (s.inst i).id)]
  refine (List.subperm_of_subset ?_ ?_).length_le
  · rw [List.nodup_iff_pairwise_ne, List.pairwise_map]
    refine (List.pairwise_iff_forall_sublist.2 ?_ : List.Pairwise _ l)
    intro i j hij he
    have hi' : i ∈ l := hij.subset (by simp)
    have hj' : j ∈ l := hij.subset (by simp)
    have hne : i ≠ j := by
      have := (List.nodup_iff_pairwise_ne.1 hl)
      exact List.pairwise_iff_forall_sublist.1 this hij
    have hids : (s.inst i).id = (s.inst j).id := congrArg Addr.actorId he
    refine hne (hu (hm i hi').1 (hm j hj').1 ?_ hids)
    rw [← hi.node i (hm i hi').1, ← hi.node j (hm j hj').1, hids]
  · intro a ha
    obtain ⟨i, h1, rfl⟩ := List.mem_map.1 ha
    have := hi.own i (hm i h1).1
    rw [(hm i h1).2] at this ⊢
    exact this

end Braid.Register
