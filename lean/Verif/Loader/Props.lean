import Verif.Loader.Spec

/-
Properties C84 and C85: static actors, and options of picked actors.
-/
namespace Braid.Loader

/-- What `AssignToNode` reads of a constructor. -/
def same (h h' : Heap) : Prop := ∀ a, (h' a).name = (h a).name ∧ (h' a).dynamic = (h a).dynamic ∧
  (if (h' a).id = "" then (h' a).name else (h' a).id) = if (h a).id = "" then (h a).name else (h a).id

theorem same_trans {h h' h'' : Heap} (a : same h h') (b : same h' h'') : same h h'' := by
  intro x
  obtain ⟨a1, a2, a3⟩ := a x
  obtain ⟨b1, b2, b3⟩ := b x
  exact ⟨b1.trans a1, b2.trans a2, b3.trans a3⟩

theorem same_fill (h : Heap) (a : Nat) : same h (if (h a).id = "" then upd h a { h a with id := (h a).name } else h) := by
  intro x
  split
  · rename_i hid
    by_cases hx : x = a
    · subst hx
      refine ⟨by simp, by simp, ?_⟩
      simp only [upd_same, hid, if_true]
      split <;> rfl
    · simp [upd_of_ne _ _ hx]
  · exact ⟨rfl, rfl, rfl⟩

theorem get_mem {keys : List (String × Nat)} (hn : (keys.map (·.1)).Nodup) {x : String × Nat} (hx : x ∈ keys) :
    get keys x.1 = some x.2 := by
  induction keys with
  | nil => cases hx
  | cons y l ih =>
    simp only [List.map_cons, List.nodup_cons] at hn
    simp only [get, List.find?_cons]
    rcases List.mem_cons.1 hx with rfl | h
    · simp
    · have hne : (y.1 == x.1) = false := by
        simp only [beq_eq_false_iff_ne, ne_eq]
        intro e
        exact hn.1 (List.mem_map.2 ⟨x, h, e.symm⟩)
      rw [hne]
      exact ih hn.2 h

/-- The order in which the map is read, one type after the other. -/
theorem assign_order (keys : List (String × Nat)) (outcome : String → String → Bool) (node : String)
    (l : List (String × Nat)) : ∀ (h0 h : Heap), WellFormed keys h0 → (∀ x ∈ l, x ∈ keys) → same h0 h →
    ∃ h', assign keys outcome node (l.map (·.2)) h =
      some (h', (wanted l h0 node).map fun x => ⟨x.1, x.2, outcome x.1 x.2⟩) ∧ same h0 h' := by
  induction l with
  | nil => intro h0 h _ _ hs; exact ⟨h, rfl, hs⟩
  | cons x l ih =>
    intro h0 h hw hl hs
    have hx : x ∈ keys := hl x List.mem_cons_self
    have hl' : ∀ y ∈ l, y ∈ keys := fun y hy => hl y (List.mem_cons_of_mem _ hy)
    obtain ⟨e1, e2, e3⟩ := hs x.2
    have hname := hw.2 x hx
    cases hd : (h0 x.2).dynamic with
    | true =>
      obtain ⟨h', r1, r2⟩ := ih h0 h hw hl' hs
      refine ⟨h', ?_, r2⟩
      simp only [List.map_cons, assign, e2, hd, if_true, r1]
      simp [wanted, hd]
    | false =>
      obtain ⟨h', r1, r2⟩ := ih h0 _ hw hl' (same_trans hs (same_fill h x.2))
      refine ⟨h', ?_, r2⟩
      have hg : get keys (h x.2).name = some x.2 := by
        rw [e1, hname]; exact get_mem hw.1 hx
      have hd' : (h x.2).dynamic = false := by rw [e2, hd]
      rw [List.map_cons, assign, if_neg (by simp [hd']), hg]
      simp only [r1]
      have hid : ((if (h x.2).id = "" then upd h x.2 { h x.2 with id := (h x.2).name } else h) x.2).id =
          if (h0 x.2).id = "" then x.1 else (h0 x.2).id := by
        rw [hname] at e3
        rw [← e3, e1]
        split
        · simp [e1]
        · rfl
      rw [hid, e1, hname]
      simp [wanted, hd]

/-- A permutation of the addresses comes from one of the entries. -/
theorem perm_entries {keys : List (String × Nat)} {order : List Nat} (hp : order.Perm (keys.map (·.2))) :
    ∃ l : List (String × Nat), l.Perm keys ∧ order = l.map (·.2) := by
  induction order generalizing keys with
  | nil =>
    have : keys = [] := by simpa using hp.symm.eq_nil
    exact ⟨[], by simp [this], rfl⟩
  | cons a as ih =>
    have hm : a ∈ keys.map (·.2) := hp.subset List.mem_cons_self
    obtain ⟨x, hx, rfl⟩ := List.mem_map.1 hm
    obtain ⟨l1, l2, rfl⟩ := List.append_of_mem hx
    have hp' : as.Perm ((l1 ++ l2).map (·.2)) := by
      have : (x.2 :: as).Perm (x.2 :: ((l1 ++ l2).map (·.2))) := by
        refine hp.trans ?_
        simp only [List.map_append, List.map_cons]
        exact List.perm_middle
      exact List.Perm.cons_inv this
    obtain ⟨l, h1, rfl⟩ := ih hp'
    exact ⟨x :: l, (List.Perm.cons x h1).trans List.perm_middle.symm, rfl⟩

/-- **C84**, the part that holds: if the constructors are filed under their names, `AssignToNode` calls `Register` exactly
once for each type that is not dynamic, under the right id, and for no other, in whatever order the map is read and
whatever registrations return. What is missing: constructors filed under another name, and registrations that fail. -/
theorem C84_partial (keys : List (String × Nat)) (h : Heap) (hw : WellFormed keys h) (outcome : String → String → Bool)
    (node : String) (order : List Nat) (hp : order.Perm (keys.map (·.2))) :
    ∃ h' rs, assign keys outcome node order h = some (h', rs) ∧
      (rs.map fun r => (r.ty, r.id)).Perm (wanted keys h node) := by
  obtain ⟨l, hl, rfl⟩ := perm_entries hp
  obtain ⟨h', e, -⟩ := assign_order keys outcome node l h h hw (fun x hx => hl.subset hx) (fun _ => ⟨rfl, rfl, rfl⟩)
  refine ⟨h', _, e, ?_⟩
  rw [List.map_map]
  have : ((fun r : Reg => (r.ty, r.id)) ∘ fun x : String × String => (⟨x.1, x.2, outcome x.1 x.2⟩ : Reg)) = id := by
    funext x; rfl
  rw [this, List.map_id]
  unfold wanted
  exact (hl.filter _).map _

/-- **C84**, several nodes with one factory: the ids that `AssignToNode` fills in do not disturb later nodes. -/
theorem C84_nodes_partial (keys : List (String × Nat)) (h : Heap) (hw : WellFormed keys h) (outcome : String → String → Bool)
    (nodes : List (String × List Nat)) (hp : ∀ x ∈ nodes, x.2.Perm (keys.map (·.2))) :
    ∃ rss, assignAll keys outcome nodes h = some rss ∧ rss.length = nodes.length ∧
      ∀ i (_ : i < nodes.length) rs, rss[i]? = some rs → (rs.map fun r => (r.ty, r.id)).Perm (wanted keys h nodes[i].1) := by
  suffices hk : ∀ (nodes : List (String × List Nat)) (g : Heap), same h g → (∀ x ∈ nodes, x.2.Perm (keys.map (·.2))) →
      ∃ rss, assignAll keys outcome nodes g = some rss ∧ rss.length = nodes.length ∧
      ∀ i (_ : i < nodes.length) rs, rss[i]? = some rs → (rs.map fun r => (r.ty, r.id)).Perm (wanted keys h nodes[i].1) from
    hk nodes h (fun _ => ⟨rfl, rfl, rfl⟩) hp
  intro nodes
  induction nodes with
  | nil => intro g _ _; exact ⟨[], rfl, rfl, fun i hi => absurd hi (Nat.not_lt_zero _)⟩
  | cons x l ih =>
    intro g hg hp
    obtain ⟨node, order⟩ := x
    obtain ⟨es, hl, ho⟩ := perm_entries (hp _ List.mem_cons_self)
    simp only at ho
    subst ho
    obtain ⟨h', e, hs⟩ := assign_order keys outcome node es h g hw (fun x hx => hl.subset hx) hg
    obtain ⟨rss, r1, r2, r3⟩ := ih h' hs fun y hy => hp y (List.mem_cons_of_mem _ hy)
    refine ⟨_ :: rss, by simp only [assignAll, e, r1]; rfl, by simp [r2], ?_⟩
    intro i hi rs hrs
    cases i with
    | zero =>
      simp only [List.getElem?_cons_zero, Option.some.injEq] at hrs
      subst hrs
      rw [List.map_map]
      have : ((fun r : Reg => (r.ty, r.id)) ∘ fun x : String × String => (⟨x.1, x.2, outcome x.1 x.2⟩ : Reg)) = id := by
        funext x; rfl
      rw [this, List.map_id]
      unfold wanted
      exact (hl.filter _).map _
    | succ i =>
      simp only [List.getElem?_cons_succ] at hrs
      simpa using r3 i (by simpa using hi) rs hrs

/-- **C84** is violated: a constructor that is filed under another name than its own makes `AssignToNode` panic. -/
theorem C84_panic_refuted (h : Heap) (k : String) (a : Nat) (hd : (h a).dynamic = false) (hk : k ≠ (h a).name)
    (outcome : String → String → Bool) (node : String) : assign [(k, a)] outcome node [a] h = none := by
  have : (k == (h a).name) = false := by simpa using hk
  simp [assign, hd, get, this]

/-- **C84** is violated: if no registration succeeds `AssignToNode` ends like any other time, and no actor was started. -/
theorem C84_failure_refuted (keys : List (String × Nat)) (h : Heap) (hw : WellFormed keys h) (node : String) :
    ∃ h' rs, assign keys (fun _ _ => false) node (keys.map (·.2)) h = some (h', rs) ∧ ∀ r ∈ rs, r.ok = false := by
  obtain ⟨h', e, -⟩ := assign_order keys (fun _ _ => false) node keys h h hw (fun x hx => hx) (fun _ => ⟨rfl, rfl, rfl⟩)
  refine ⟨h', _, e, ?_⟩
  intro r hr
  obtain ⟨x, -, rfl⟩ := List.mem_map.1 hr
  rfl

/-- The factory of the tests (`mock_factory.go` L15-79), with one id left out. -/
def exKeys : List (String × Nat) := [("MockDynamicPicker", 0), ("MockDynamicRegister", 1), ("MockActorControl", 2), ("mocka", 3)]
def exHeap : Heap := fun a => if a = 0 then ⟨"MockDynamicPicker", "MockDynamicPicker", false⟩
  else if a = 1 then ⟨"MockDynamicRegister", "MockDynamicRegister", false⟩
  else if a = 2 then ⟨"MockActorControl", "", false⟩ else ⟨"mocka", "mocka", true⟩

example : WellFormed exKeys exHeap ∧ wanted exKeys exHeap "n1" = [("MockDynamicPicker", "n1_MockDynamicPicker"),
    ("MockDynamicRegister", "n1_MockDynamicRegister"), ("MockActorControl", "n1_MockActorControl")] :=
  ⟨⟨by decide, by decide⟩, by decide⟩

/-! ### C85 -/

/-- Picks on their way carry the options of their builders. -/
theorem pick_inv {h : List Ev} {s : State} (hr : sys.Run h s) :
    ∀ i ty f, s.picks i = some (ty, f) → ∃ ob, Ev.picked i ty ob ∈ h ∧ f "ActorTy" = some ty ∧
      ∀ k, k ≠ "ActorID" → k ≠ "ActorTy" → f k = ob k := by
  refine Lts.Run.invariant (M := sys) (P := fun h s => ∀ i ty f, s.picks i = some (ty, f) → ∃ ob, Ev.picked i ty ob ∈ h ∧
    f "ActorTy" = some ty ∧ ∀ k, k ≠ "ActorID" → k ≠ "ActorTy" → f k = ob k) ?_ ?_ hr
  · intro i ty f hf; cases hf
  · intro h s a s' evs _ hi hs
    replace hs : step s a = some (s', evs) := hs
    cases a with
    | withOpt n ty k v =>
      simp only [step, Option.some.injEq, Prod.mk.injEq] at hs
      obtain ⟨rfl, rfl⟩ := hs
      intro i ty' f hf
      obtain ⟨ob, h1, h2⟩ := hi i ty' f hf
      exact ⟨ob, by simpa using h1, h2⟩
    | pick n ty id =>
      simp only [step, Option.some.injEq, Prod.mk.injEq] at hs
      obtain ⟨rfl, rfl⟩ := hs
      intro i ty' f hf
      by_cases hx : i = s.next
      · subst hx
        simp only [upd_same, Option.some.injEq, Prod.mk.injEq] at hf
        obtain ⟨rfl, rfl⟩ := hf
        exact ⟨_, List.mem_append_right _ (List.mem_singleton.2 rfl), by simp,
          fun k h1 h2 => by rw [upd_of_ne _ _ h2, upd_of_ne _ _ h1]⟩
      · simp only [upd_of_ne _ _ hx] at hf
        obtain ⟨ob, h1, h2⟩ := hi i ty' f hf
        exact ⟨ob, List.mem_append_left _ h1, h2⟩
    | register j n id =>
      simp only [step] at hs
      split at hs
      · cases hs
      · simp only [Option.some.injEq, Prod.mk.injEq] at hs
        obtain ⟨rfl, rfl⟩ := hs
        intro i ty' f hf
        by_cases hx : i = j
        · subst hx; simp at hf
        · simp only [upd_of_ne _ _ hx] at hf
          obtain ⟨ob, h1, h2⟩ := hi i ty' f hf
          exact ⟨ob, List.mem_append_left _ h1, h2⟩

/-- **C85**, the part that holds: every picked actor has its id, its type and all the options of its builder. What is
missing: that it has no others. -/
theorem C85_has_partial {h : List Ev} {s : State} (hr : sys.Run h s) {i n : Nat} {id : String} {o : Opts}
    (hm : Ev.made i n id o ∈ h) : ∃ ty ob, Ev.picked i ty ob ∈ h ∧ o "ActorID" = some id ∧ o "ActorTy" = some ty ∧
      ∀ k v, k ≠ "ActorID" → k ≠ "ActorTy" → ob k = some v → o k = some v := by
  obtain ⟨h1, h2, rfl⟩ := List.append_of_mem hm
  obtain ⟨h0, s0, a, s1, pre, post, as, rest, r0, st, e1, e2, ex⟩ := Lts.Run.split_at hr rfl
  replace st : step s0 a = some (s1, _) := st
  cases a with
  | withOpt => simp [step] at st
  | pick =>
    simp only [step, Option.some.injEq, Prod.mk.injEq] at st
    have := st.2
    cases pre <;> simp at this
  | register j m id' =>
    simp only [step] at st
    split at st
    · cases st
    · rename_i ty f hf
      simp only [Option.some.injEq, Prod.mk.injEq] at st
      have hst := st.2
      cases pre with
      | cons x l => simp at hst
      | nil =>
        simp only [List.nil_append, List.cons.injEq, Ev.made.injEq] at hst
        obtain ⟨⟨rfl, rfl, rfl, rfl⟩, -⟩ := hst
        obtain ⟨ob, p1, p2, p3⟩ := pick_inv r0 _ ty f hf
        refine ⟨ty, ob, ?_, ?_, ?_, ?_⟩
        · rw [e1]; simp [p1]
        · simp [over]
        · have : "ActorTy" ≠ "ActorID" := by decide
          simp [over, upd_of_ne _ _ this, p2]
        · intro k v k1 k2 hv
          simp [over, upd_of_ne _ _ k1, p3 k k1 k2, hv]

/-- **C85**, what an actor sees, exactly: what its pick carries, over what the builders of its type on the node have had
before. -/
theorem C85_seen (s : State) (i n : Nat) (id ty : String) (f : Opts) (hf : s.picks i = some (ty, f)) :
    ∃ s' o, step s (.register i n id) = some (s', [.made i n id o]) ∧ s'.opts n ty = o ∧
      ∀ k, o k = if k = "ActorID" then some id else if f k = none then s.opts n ty k else f k := by
  have hs : step s (.register i n id) = some (
      { s with opts := upd s.opts n (upd (s.opts n) ty (over (s.opts n ty) (upd f "ActorID" (some id)))),
               picks := upd s.picks i none },
      [.made i n id (over (s.opts n ty) (upd f "ActorID" (some id)))]) := by
    simp only [step, hf]
  refine ⟨_, _, hs, by simp, fun k => ?_⟩
  by_cases hk : k = "ActorID"
  · subst hk; simp [over]
  · simp only [over, upd_of_ne _ _ hk, hk, if_false]
    cases f k <;> simp

/-- **C85** is violated: an actor picked at node 2 without any options sees the option of an earlier one, which was picked
at node 0, as both are made at node 1. -/
theorem C85_refuted : ∃ h s, sys.Run h s ∧ ¬ Exact h := by
  have hr := Lts.run_of_exec (M := sys) (as := [.withOpt 0 "ty" "k" "v", .pick 0 "ty" "a", .register 0 1 "n1_a",
    .pick 2 "ty" "b", .register 1 1 "n1_b"]) rfl
  refine ⟨_, _, hr, fun he => ?_⟩
  obtain ⟨ty, ob, hm, hk⟩ := he 1 1 "n1_b" _ (List.mem_cons_of_mem _ (List.mem_cons_of_mem _ (List.mem_cons_of_mem _
    (List.mem_cons_self))))
  have h1 := hk "k"
  simp only [List.cons_append, List.nil_append, List.mem_cons, Ev.picked.injEq, reduceCtorEq, List.not_mem_nil, or_false,
    false_or] at hm
  rcases hm with ⟨h0, -⟩ | ⟨-, -, h3⟩
  · cases h0
  · have h2 : (if "k" = "ActorID" then some "n1_b" else if "k" = "ActorTy" then some ty else ob "k") = ob "k" := rfl
    rw [h2, h3] at h1
    exact absurd h1 (by decide)

/-- A pick with an option that is made at another node. -/
example : ∃ h s, sys.Run h s ∧ ∃ o, Ev.made 0 1 "n1_a" o ∈ h ∧ o "k" = some "v" := by
  have hr := Lts.run_of_exec (M := sys) (as := [.withOpt 0 "ty" "k" "v", .pick 0 "ty" "a", .register 0 1 "n1_a"]) rfl
  exact ⟨_, _, hr, _, List.mem_cons_of_mem _ List.mem_cons_self, by decide⟩

end Braid.Loader
