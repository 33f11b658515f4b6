import Verif.Book.Calls

/-
Property C102 (calls of the address book that overlap).
-/
namespace Braid.Book
open AddressBook Book.Spec
open AddressBook.Spec (Reg weightOf)

variable {cfg : Nat → NodeCfg} {own : String → Nat}

/-- C102 (partial): however calls overlap, if those that concern one id do not, `GetByID` on a node that has not stopped finds
every actor of the directory at the moment it returns, and finds nothing if the id is not in the directory and no call
that concerns it is in progress (unless Redis fails the lookup). Missing: overlapping calls for one id, see the refutations. -/
theorem C102_found_partial (hd : DistinctNodes cfg) {h1 h2 : List Ev} {s : State} {g m : Nat} {id : String} {r : Res}
    (hr : (sys cfg).Run (h1 ++ .finish g (.get m id) r :: h2) s)
    (hl : LegalHist own (h1 ++ .finish g (.get m id) r :: h2)) (hu : Unbroken (h1 ++ .finish g (.get m id) r :: h2))
    (hm : ¬ Stopped h1 m) (hb : r ≠ .broken) :
    (∀ x ∈ dir h1, x.id = id → ∃ a, r = .found a ∧ a.actorId = id ∧ a.node = (cfg x.node).nodeID ∧ a.ip = (cfg x.node).ip ∧
      a.port = (cfg x.node).port) ∧
    (id ≠ "" → (∀ x ∈ dir h1, x.id ≠ id) → Quiet own h1 id → r = .unknown) := by
  obtain ⟨h0, s0, a, s1, pre, post, -, -, hr0, hs, hh, -⟩ := hr.split_at rfl
  obtain ⟨rfl, hcase⟩ := finish_get hs
  rw [List.append_nil] at hh
  subst hh
  obtain ⟨F, hi⟩ := inv_run hd hr0 (legal_prefix hl) (unbroken_prefix hu)
  rcases hcase with hcase | hcase
  · exact absurd hcase hb
  constructor
  · rintro x hx rfl
    obtain ⟨e1, e2, e3, e4, e5⟩ := hi.dirOn x hx
    have hids : s0.W.redis.ids x.id = some (addrOf cfg x.node x.ty x.id) := by
      rw [hi.impl.ids, e1, e2]; rfl
    rcases hcase with ⟨h, -⟩ | ⟨-, hmap, rfl⟩ | ⟨h, -⟩ | ⟨a, h, rfl⟩
    · exact absurd h e3
    · have := ((hi.impl.idmap m x.id).1 hmap).1
      rw [e2] at this
      subst this
      exact ⟨_, rfl, rfl, rfl, rfl, rfl⟩
    · rw [hids] at h; cases h
    · rw [hids] at h; cases h
      exact ⟨_, rfl, rfl, rfl, rfl, rfl⟩
  · intro hne hno hq
    have hfree : ∀ g', ¬ (s0.pc g').busy id := by
      intro g' hg
      obtain ⟨o, k1, k2⟩ := busy_op hg
      exact (hq (g', o) ((hi.act g' o).2 k1)).1 k2
    have hgone : (F id).inIds = false ∧ (m = own id → (F id).inMap = false) := by
      by_cases hst : Stopped h1 (own id)
      · have := (hi.done (own id) hst fun g' hc => (hq (g', .clear (own id)) ((hi.act g' _).2 hc)).2 rfl).1 id rfl
        exact ⟨this.1, fun he => absurd (he ▸ hst) hm⟩
      · have := hi.off id hno hfree hst
        exact ⟨this.1, fun _ => this.2.2.2.2⟩
    have hids : s0.W.redis.ids id = none := by rw [hi.impl.ids, hgone.1]; rfl
    rcases hcase with ⟨h, -⟩ | ⟨-, hmap, -⟩ | ⟨-, h⟩ | ⟨a, h, -⟩
    · exact absurd h hne
    · obtain ⟨e1, e2⟩ := (hi.impl.idmap m id).1 hmap
      rw [hgone.2 e1] at e2; cases e2
    · exact h
    · rw [hids] at h; cases h

/-- C102 (partial): under the same rules `GetByType` lists every actor of the type in the directory with its address, and
whatever else it lists belongs to a call in progress. -/
theorem C102_listed_partial (hd : DistinctNodes cfg) {h1 h2 : List Ev} {s : State} {g : Nat} {ty : String} {l : List Addr}
    (hr : (sys cfg).Run (h1 ++ .finish g (.list ty) (.members l) :: h2) s)
    (hl : LegalHist own (h1 ++ .finish g (.list ty) (.members l) :: h2))
    (hu : Unbroken (h1 ++ .finish g (.list ty) (.members l) :: h2)) :
    (∀ x ∈ dir h1, x.ty = ty → x.addr cfg ∈ l) ∧
    ∀ a ∈ l, (∃ x ∈ dir h1, x.ty = ty ∧ x.addr cfg = a) ∨ ¬ Quiet own h1 a.actorId := by
  obtain ⟨h0, s0, a, s1, pre, post, -, -, hr0, hs, hh, -⟩ := hr.split_at rfl
  obtain ⟨rfl, hcase⟩ := finish_list hs
  rw [List.append_nil] at hh
  subst hh
  obtain ⟨F, hi⟩ := inv_run hd hr0 (legal_prefix hl) (unbroken_prefix hu)
  have hm : l = s0.W.redis.tys ty := by
    rcases hcase with h | h <;> cases h
    rfl
  subst hm
  constructor
  · rintro x hx rfl
    obtain ⟨e1, e2, e3, e4, e5⟩ := hi.dirOn x hx
    exact (hi.impl.tys _ _).2 ⟨x.id, by rw [e1]; rfl, by rw [e1]; rfl, by rw [e2]; rfl⟩
  · intro a ha
    obtain ⟨id, e1, e2, rfl⟩ := (hi.impl.tys _ _).1 ha
    by_cases hx : ∃ x ∈ dir h1, x.id = id
    · left
      obtain ⟨x, hx, rfl⟩ := hx
      obtain ⟨e3, e4, -⟩ := hi.dirOn x hx
      rw [e3] at e2
      refine ⟨x, hx, e2, ?_⟩
      rw [e4, ← e2]; rfl
    · right
      intro hq
      replace hq : Quiet own h1 id := hq
      have hfree : ∀ g', ¬ (s0.pc g').busy id := by
        intro g' hg
        obtain ⟨o, k1, k2⟩ := busy_op hg
        exact (hq (g', o) ((hi.act g' o).2 k1)).1 k2
      have : (F id).inTys = false := by
        by_cases hst : Stopped h1 (own id)
        · exact ((hi.done (own id) hst fun g' hc => (hq (g', .clear (own id)) ((hi.act g' _).2 hc)).2 rfl).1 id rfl).2.1
        · exact (hi.off id (fun x hx' he => hx ⟨x, hx', he⟩) hfree hst).2.1
      rw [e1] at this; cases this

/-- C102 (partial): under the same rules `Register` returns nil exactly if its arguments are not empty and the id is not in the
directory, and an error otherwise. -/
theorem C102_register_partial (hd : DistinctNodes cfg) {h1 h2 : List Ev} {s : State} {g n : Nat} {ty id : String} {w : Int}
    {r : Res} (hr : (sys cfg).Run (h1 ++ .finish g (.reg n ty id w) r :: h2) s)
    (hl : LegalHist own (h1 ++ .finish g (.reg n ty id w) r :: h2))
    (hu : Unbroken (h1 ++ .finish g (.reg n ty id w) r :: h2)) :
    (r = .ok ∨ r = .refused) ∧ (r = .ok ↔ id ≠ "" ∧ ty ≠ "" ∧ ∀ x ∈ dir h1, x.id ≠ id) := by
  obtain ⟨h0, s0, a, s1, pre, post, -, -, hr0, hs, hh, -⟩ := hr.split_at rfl
  obtain ⟨rfl, hcase⟩ := finish_reg hs
  rw [List.append_nil] at hh
  subst hh
  obtain ⟨F, hi⟩ := inv_run hd hr0 (legal_prefix hl) (unbroken_prefix hu)
  have hp := hi.pcs g
  rcases hcase with rfl | ⟨hpc, hc, rfl⟩ | ⟨hpc, rfl⟩
  · rcases hu g _ (List.mem_append_right _ (List.mem_cons_self ..)) with ⟨_, _, h⟩ | ⟨_, h⟩ <;> cases h
  · refine ⟨.inr rfl, by simp, fun ⟨k1, k2, k3⟩ => ?_⟩
    rcases hc with hc | hc | hc
    · exact absurd hc k1
    · exact absurd hc k2
    · have ho : (s0.pc g).op = some (.reg n ty id w) := by rw [hpc]; rfl
      have hw : Writes (.reg n ty id w) id := .inl ⟨_, _, _, rfl⟩
      have := hi.off id k3 (fun g' hb => ?_) (hi.live g _ id ho hw)
      · have h2 := ((hi.impl.idmap n id).1 hc).2
        rw [this.2.2.2.2] at h2; cases h2
      · obtain ⟨o, h1, h2⟩ := busy_op hb
        have he := hi.excl _ _ _ _ id ho h1 (.inl hw) (.inl h2)
        subst he
        rw [hpc] at hb
        exact hb
  · rw [hpc] at hp
    refine ⟨.inl rfl, fun _ => ⟨hp.2.1, hp.2.2.1, fun x hx he => ?_⟩, fun _ => rfl⟩
    refine hi.dirFree x hx g ?_
    rw [hpc, he]
    rfl

/-- C102 (partial): under the same rules `Unregister` returns nil exactly if the id was in the directory when it was called, and
an error otherwise. -/
theorem C102_unregister_partial (hd : DistinctNodes cfg) {h1 h2 h3 : List Ev} {s : State} {g n : Nat} {id : String} {w : Int}
    {r : Res} (hr : (sys cfg).Run (h1 ++ .begin g (.unreg n id w) :: h2 ++ .finish g (.unreg n id w) r :: h3) s)
    (hl : LegalHist own (h1 ++ .begin g (.unreg n id w) :: h2 ++ .finish g (.unreg n id w) r :: h3))
    (hu : Unbroken (h1 ++ .begin g (.unreg n id w) :: h2 ++ .finish g (.unreg n id w) r :: h3))
    (hg : ∀ e ∈ h2, who e ≠ g) :
    (r = .ok ∨ r = .refused ∨ r = .unknown) ∧ (r = .ok ↔ ∃ x ∈ dir h1, x.id = id) := by
  obtain ⟨h0, s0, a, s1, pre, post, -, -, hr0, hs, hh, -⟩ := hr.split_at rfl
  obtain ⟨rfl, hcase⟩ := finish_unreg hs
  rw [List.append_nil] at hh
  subst hh
  obtain ⟨F, hi⟩ := inv_run hd hr0 (legal_prefix hl) (unbroken_prefix hu)
  have hui := uinv_run hd hr0 (legal_prefix hl) (unbroken_prefix hu) g n id w
  have key : (s0.pc g).op = some (.unreg n id w) → Asked s0 (dir h1) id (s0.pc g) := by
    intro ho
    obtain ⟨k1, k2, e1, e2, e3⟩ := hui ho
    rw [(last_unique e1 rfl rfl hg e2).1]
    exact e3
  rcases hcase with rfl | ⟨hpc, rfl, rfl⟩ | ⟨hpc, hids, rfl⟩ | ⟨hpc, rfl⟩
  · rcases hu g _ (List.mem_append_right _ (List.mem_cons_self ..)) with ⟨_, _, h⟩ | ⟨_, h⟩ <;> cases h
  · refine ⟨.inr (.inl rfl), by simp, ?_⟩
    rintro ⟨x, hx, he⟩
    have h1 := key (by rw [hpc]; rfl)
    rw [hpc] at h1
    replace h1 := h1.2 ⟨x, hx, he⟩
    have hp := hi.pcs g
    rw [hpc] at hp
    rcases hp.2 with h2 | h2
    · rw [hi.impl.ids, h2.1] at h1
      exact absurd rfl h1
    · exact absurd rfl h2.1
  · have := key (by rw [hpc]; rfl)
    rw [hpc] at this
    refine ⟨.inr (.inr rfl), by simp, fun h => absurd hids (this.2 h)⟩
  · have := key (by rw [hpc]; rfl)
    rw [hpc] at this
    exact ⟨.inl rfl, fun _ => this, fun _ => rfl⟩

/-- C102 (partial): under the same rules, whenever no call that writes is in progress, the recorded loads of every node are
the sums of the weights of its actors in the directory, in total and per type. -/
theorem C102_load_partial (hd : DistinctNodes cfg) {h : List Ev} {s : State} (hr : (sys cfg).Run h s) (hl : LegalHist own h)
    (hu : Unbroken h) (hq : ∀ p ∈ activeOf h, ∀ n, ¬ WritesNode p.2 n) (n : Nat) :
    (totalWeight s.W (cfg n).nodeID).getD 0 = weightOf (dir h) (·.node = n) ∧
    ∀ ty, (hget (.actor ty) (s.W.redis.load (cfg n).nodeID)).getD 0 =
      weightOf (dir h) fun r => r.node = n ∧ r.ty = ty := by
  obtain ⟨F, hi⟩ := inv_run hd hr hl hu
  have hquiet : ∀ id, (∀ r ∈ dir h, r.id ≠ id) → (F id).Gone := by
    intro id hno
    have hop : ∀ g o, (s.pc g).op = some o → ∀ n, ¬ WritesNode o n := fun g o ho n =>
      hq (g, o) ((hi.act g o).2 ho) n
    by_cases hst : Stopped h (own id)
    · exact (hi.done (own id) hst fun g' hc => hop g' _ hc (own id) (.inr (.inr rfl))).1 id rfl
    · have := hi.off id hno (fun g' hg => ?_) hst
      · exact ⟨this.1, this.2.1, this.2.2.1, this.2.2.2.1⟩
      · obtain ⟨o, h1, h2⟩ := busy_op hg
        rcases h2 with ⟨m, _, _, rfl⟩ | ⟨m, _, rfl⟩
        · exact hop g' _ h1 m (.inl ⟨_, _, _, rfl⟩)
        · exact hop g' _ h1 m (.inr (.inl ⟨_, _, rfl⟩))
  obtain ⟨L, h1, h2, h3⟩ := hi.impl.load
  have key : ∀ fl, (hget fl (s.W.redis.load (cfg n).nodeID)).getD 0 =
      weightOf (dir h) (fun r => decide (r.node = n) && (Foot.full r.ty r.weight).counted fl) := by
    intro fl
    rw [h3]
    refine sum_dir (dir h) hi.dirNodup (fun r hr => ⟨(hi.dirOn r hr).1, (hi.dirOn r hr).2.1⟩) L h1 (fun r hr => ?_) n fl
      fun id _ hno => ?_
    · apply Classical.byContradiction
      intro hc
      have := (h2 r.id hc).1
      rw [(hi.dirOn r hr).1] at this
      cases this
    · obtain ⟨-, -, h4, h5⟩ := hquiet id hno
      unfold contrib
      rw [if_neg]
      rintro ⟨-, hc⟩
      cases fl <;> simp [Foot.counted, h4, h5] at hc
  refine ⟨?_, fun ty => ?_⟩
  · unfold totalWeight
    rw [key]
    simp [Foot.counted, Foot.full]
  · rw [key]
    exact congrArg (weightOf (dir h)) (funext fun r => by
      rw [Bool.eq_iff_iff]
      simp [Foot.counted, Foot.full]
      exact fun _ => decide_eq_true_iff)

/-- C102 (partial): under the same rules, once `Clear` of a node was called and is no longer in progress, nothing of the node
is left in Redis, whatever the other nodes do. -/
theorem C102_clear_partial (hd : DistinctNodes cfg) {h : List Ev} {s : State} (hr : (sys cfg).Run h s) (hl : LegalHist own h)
    (hu : Unbroken h) {n : Nat} (hst : Stopped h n) (hf : ∀ p ∈ activeOf h, p.2 ≠ .clear n) :
    (∀ id a, s.W.redis.ids id = some a → a.node ≠ (cfg n).nodeID) ∧
    (∀ ty a, a ∈ s.W.redis.tys ty → a.node ≠ (cfg n).nodeID) ∧
    s.W.redis.load (cfg n).nodeID = [] ∧ s.W.redis.nodes (cfg n).nodeID = none := by
  obtain ⟨F, hi⟩ := inv_run hd hr hl hu
  obtain ⟨h1, h2, h3⟩ := hi.done n hst fun g hc => hf (g, .clear n) ((hi.act g _).2 hc) rfl
  refine ⟨fun id a ha hc => ?_, fun ty a ha hc => ?_, h2, h3⟩
  · rw [hi.impl.ids] at ha
    split at ha
    · rename_i hin
      simp only [Option.some.injEq] at ha
      subst ha
      have := (h1 id (hd _ _ hc)).1
      rw [hin] at this; cases this
    · cases ha
  · obtain ⟨id, hin, -, rfl⟩ := (hi.impl.tys _ _).1 ha
    have := (h1 id (hd _ _ hc)).2.1
    rw [hin] at this; cases this

/-- The cluster of the examples. -/
def exCfg (n : Nat) : NodeCfg := ⟨String.ofList (List.replicate (n + 1) 'a'), "10.0.0.1", n⟩

/-- Goroutine `g` makes `k` steps. -/
def steps (g k : Nat) : List Act := List.replicate k (.go g)

/-- C102 is violated by two `Register` of one id on one node: both return nil, the load counts the actor twice, and after its
`Unregister` nothing is registered but the load is 1 and stays so. -/
theorem C102_register_refuted : ∃ h s, (sys exCfg).Run h s ∧ activeOf h = [] ∧ dir h = [] ∧
    .finish 0 (.reg 0 "t" "x" 1) .ok ∈ h ∧ .finish 1 (.reg 0 "t" "x" 1) .ok ∈ h ∧ .finish 0 (.unreg 0 "x" 1) .ok ∈ h ∧
    s.W.redis.ids "x" = none ∧ totalWeight s.W (exCfg 0).nodeID = some 1 :=
  ⟨[.begin 0 (.reg 0 "t" "x" 1), .begin 1 (.reg 0 "t" "x" 1), .finish 0 (.reg 0 "t" "x" 1) .ok,
      .finish 1 (.reg 0 "t" "x" 1) .ok, .begin 0 (.unreg 0 "x" 1), .finish 0 (.unreg 0 "x" 1) .ok], _,
    Lts.run_of_exec (M := sys exCfg) (as := [.start 0 (.reg 0 "t" "x" 1), .start 1 (.reg 0 "t" "x" 1), .go 0] ++
      steps 1 7 ++ steps 0 7 ++ [.go 1, .start 0 (.unreg 0 "x" 1)] ++ steps 0 7) rfl,
    by decide +kernel, by decide +kernel, by simp, by simp, by simp, by decide +kernel, by decide +kernel⟩

/-- C102 is violated by two `Unregister` of one id on one node: both read the record, both return nil, and the load becomes
-1 with nothing registered. -/
theorem C102_unregister_refuted : ∃ h s, (sys exCfg).Run h s ∧ activeOf h = [] ∧ dir h = [] ∧
    .finish 0 (.unreg 0 "x" 1) .ok ∈ h ∧ .finish 1 (.unreg 0 "x" 1) .ok ∈ h ∧
    s.W.redis.ids "x" = none ∧ totalWeight s.W (exCfg 0).nodeID = some (-1) :=
  ⟨[.begin 0 (.reg 0 "t" "x" 1), .finish 0 (.reg 0 "t" "x" 1) .ok, .begin 0 (.unreg 0 "x" 1), .begin 1 (.unreg 0 "x" 1),
      .finish 1 (.unreg 0 "x" 1) .ok, .finish 0 (.unreg 0 "x" 1) .ok], _,
    Lts.run_of_exec (M := sys exCfg) (as := [.start 0 (.reg 0 "t" "x" 1)] ++ steps 0 8 ++
      [.start 0 (.unreg 0 "x" 1), .start 1 (.unreg 0 "x" 1), .go 0] ++ steps 1 7 ++ steps 0 6) rfl,
    by decide +kernel, by decide +kernel, by simp, by simp, by decide +kernel, by decide +kernel⟩

/-- C102 is violated by an `Unregister` that overlaps the `Register` of the id: it comes between the pipeline and the write to
the `IDMap`, so `Register` returns nil last, and afterwards another node finds nothing, the node itself finds the actor, and
registering it again is refused. -/
theorem C102_stale_refuted : ∃ h s, (sys exCfg).Run h s ∧ activeOf h = [] ∧ dir h = [⟨"x", "t", 0, 1⟩] ∧
    .finish 0 (.reg 0 "t" "x" 1) .ok ∈ h ∧ .finish 2 (.get 1 "x") .unknown ∈ h ∧
    .finish 3 (.get 0 "x") (.found ⟨"x", "", (exCfg 0).nodeID, (exCfg 0).ip, (exCfg 0).port⟩) ∈ h ∧
    .finish 0 (.reg 0 "t" "x" 1) .refused ∈ h ∧ s.W.redis.ids "x" = none :=
  ⟨[.begin 0 (.reg 0 "t" "x" 1), .begin 1 (.unreg 0 "x" 1), .finish 1 (.unreg 0 "x" 1) .ok,
      .finish 0 (.reg 0 "t" "x" 1) .ok, .begin 2 (.get 1 "x"), .finish 2 (.get 1 "x") .unknown,
      .begin 3 (.get 0 "x"), .finish 3 (.get 0 "x") (.found ⟨"x", "", (exCfg 0).nodeID, (exCfg 0).ip, (exCfg 0).port⟩),
      .begin 0 (.reg 0 "t" "x" 1), .finish 0 (.reg 0 "t" "x" 1) .refused], _,
    Lts.run_of_exec (M := sys exCfg) (as := [.start 0 (.reg 0 "t" "x" 1)] ++ steps 0 7 ++ [.start 1 (.unreg 0 "x" 1)] ++
      steps 1 7 ++ [.go 0, .start 2 (.get 1 "x")] ++ steps 2 2 ++ [.start 3 (.get 0 "x"), .go 3,
      .start 0 (.reg 0 "t" "x" 1), .go 0]) rfl,
    by decide +kernel, by decide +kernel, by simp, by simp, by simp, by simp, by decide +kernel⟩

/-- C102 is violated by a `Register` that overlaps `Clear` of its node: `Clear` returns nil and the record of the actor comes
afterwards, to stay. -/
theorem C102_clear_refuted : ∃ h s, (sys exCfg).Run h s ∧ activeOf h = [] ∧ .finish 1 (.clear 0) .ok ∈ h ∧
    s.W.redis.ids "x" = some ⟨"x", "t", (exCfg 0).nodeID, (exCfg 0).ip, (exCfg 0).port⟩ ∧
    totalWeight s.W (exCfg 0).nodeID = some 1 :=
  ⟨[.begin 0 (.reg 0 "t" "x" 1), .begin 1 (.clear 0), .finish 1 (.clear 0) .ok, .finish 0 (.reg 0 "t" "x" 1) .ok], _,
    Lts.run_of_exec (M := sys exCfg) (as := [.start 0 (.reg 0 "t" "x" 1), .go 0, .start 1 (.clear 0), .range 1 []] ++
      steps 1 4 ++ steps 0 7) rfl,
    by decide +kernel, by simp, by decide +kernel, by decide +kernel⟩

/-! A run that meets the hypotheses: on node 0 "x" and "y" are registered at the same time, on node 1 "z" is registered while
node 2 looks up "x"; then "y" is unregistered while "x" is looked up and listed, and node 1 is cleared. -/

def exOwn (id : String) : Nat := if id = "z" then 1 else 0

def exActs : List Act :=
  [.start 0 (.reg 0 "t" "x" 1), .start 1 (.reg 0 "t" "y" 2), .start 2 (.reg 1 "t" "z" 5), .go 1, .go 0, .go 2] ++ steps 0 2 ++
  steps 1 7 ++ steps 0 5 ++ [.start 3 (.get 2 "x"), .go 3] ++ steps 2 4 ++ [.go 3] ++ steps 2 3 ++
  [.start 1 (.unreg 0 "y" 2)] ++ steps 1 2 ++ [.start 3 (.list "t"), .go 3] ++ steps 1 5 ++ [.start 2 (.clear 1),
   .range 2 ["t"]] ++ steps 2 7

def exHist1 : List Ev :=
  [.begin 0 (.reg 0 "t" "x" 1), .begin 1 (.reg 0 "t" "y" 2), .begin 2 (.reg 1 "t" "z" 5), .finish 1 (.reg 0 "t" "y" 2) .ok,
   .finish 0 (.reg 0 "t" "x" 1) .ok, .begin 3 (.get 2 "x")]

def exHist2 : List Ev :=
  [.finish 2 (.reg 1 "t" "z" 5) .ok, .begin 1 (.unreg 0 "y" 2), .begin 3 (.list "t")]

def exHist3 : List Ev := [.finish 1 (.unreg 0 "y" 2) .ok, .begin 2 (.clear 1), .finish 2 (.clear 1) .ok]

def exAddr (n : Nat) (id : String) : Addr := ⟨id, "t", (exCfg n).nodeID, (exCfg n).ip, (exCfg n).port⟩

def exHist : List Ev := exHist1 ++ .finish 3 (.get 2 "x") (.found (exAddr 0 "x")) :: (exHist2 ++
  .finish 3 (.list "t") (.members [exAddr 0 "x", exAddr 0 "y", exAddr 1 "z"]) :: exHist3)

theorem exDistinct : DistinctNodes exCfg := by
  intro m n h
  have := congrArg String.length h
  simpa [exCfg] using this

/-- `LegalHist` event by event. -/
def legalFrom (own : String → Nat) : List Ev → List Ev → Prop
  | _, [] => True
  | pre, e :: t => (∀ g o, e = .begin g o → Legal own pre o) ∧ legalFrom own (pre ++ [e]) t

theorem legal_of {h : List Ev} : ∀ {pre : List Ev}, legalFrom own pre h →
    ∀ p g o q, h = p ++ .begin g o :: q → Legal own (pre ++ p) o := by
  induction h with
  | nil => intro pre _ p g o q he; simp at he
  | cons e t ih =>
    intro pre hl p g o q he
    cases p with
    | nil =>
      cases he
      simpa using hl.1 g o rfl
    | cons e' p =>
      simp only [List.cons_append, List.cons.injEq] at he
      have := ih hl.2 p g o q he.2
      rw [he.1] at this
      simpa using this

theorem exLegal : LegalHist exOwn exHist := by
  have h : legalFrom exOwn [] exHist := by
    simp [exHist, exHist1, exHist2, exHist3, legalFrom, Legal, Stopped, activeOf, active, Writes, WritesNode, dir, dirStep,
      exOwn]
  simpa [LegalHist] using legal_of h

theorem exUnbroken : Unbroken exHist := by
  intro g o h
  simp [exHist, exHist1, exHist2, exHist3] at h

def exState : State := (((sys exCfg).exec init exActs).map (·.1)).getD init

theorem exRun : (sys exCfg).Run exHist exState := Lts.run_of_exec (M := sys exCfg) (as := exActs) rfl

/-- The lookup of "x" while "z" is being registered finds it. -/
example : ∃ a, Res.found (exAddr 0 "x") = .found a ∧ a.actorId = "x" ∧ a.node = (exCfg 0).nodeID ∧ a.ip = (exCfg 0).ip ∧
    a.port = (exCfg 0).port :=
  (C102_found_partial (h1 := exHist1) exDistinct exRun exLegal exUnbroken (by simp [Stopped, exHist1]) (by simp)).1
    ⟨"x", "t", 0, 1⟩ (by decide +kernel) rfl

/-- The list made while "y" is being unregistered has "x" and "z". -/
example (a : Addr) (h : a = exAddr 0 "x" ∨ a = exAddr 1 "z") : a ∈ [exAddr 0 "x", exAddr 0 "y", exAddr 1 "z"] := by
  have hh : exHist = (exHist1 ++ .finish 3 (.get 2 "x") (.found (exAddr 0 "x")) :: exHist2) ++
      .finish 3 (.list "t") (.members [exAddr 0 "x", exAddr 0 "y", exAddr 1 "z"]) :: exHist3 := by simp [exHist]
  have := (C102_listed_partial exDistinct (hh ▸ exRun) (hh ▸ exLegal) (hh ▸ exUnbroken)).1
  rcases h with rfl | rfl
  · exact this ⟨"x", "t", 0, 1⟩ (by decide +kernel) rfl
  · exact this ⟨"z", "t", 1, 5⟩ (by decide +kernel) rfl

/-- The second registration that returns is accepted, since only "y" is registered at that time. -/
example : Res.ok = .ok ∨ Res.ok = .refused :=
  (C102_register_partial (h1 := exHist1.take 4) (h2 := exHist.drop 5) (g := 0) (n := 0) (ty := "t") (id := "x") (w := 1)
    (r := .ok) exDistinct exRun exLegal exUnbroken).1

/-- "y" was in the directory when its `Unregister` was called. -/
example : ∃ x ∈ dir (exHist.take 8), x.id = "y" :=
  (C102_unregister_partial (h1 := exHist.take 8) (h2 := (exHist.drop 9).take 2) (h3 := exHist.drop 12) (g := 1) (n := 0)
    (id := "y") (w := 2) (r := .ok) exDistinct exRun exLegal exUnbroken (by simp [exHist, exHist1, exHist2, who])).2.1 rfl

/-- In the end the load of node 0 is the weight of "x". -/
example : (totalWeight exState.W (exCfg 0).nodeID).getD 0 = 1 :=
  (C102_load_partial exDistinct exRun exLegal exUnbroken (by
    have : activeOf exHist = [] := by decide +kernel
    simp [this]) 0).1.trans (by decide +kernel)

/-- In the end nothing of node 1 is left. -/
example : exState.W.redis.ids "z" ≠ some (exAddr 1 "z") := fun h =>
  (C102_clear_partial exDistinct exRun exLegal exUnbroken (n := 1) ⟨2, by simp [exHist, exHist3]⟩ (by
    have : activeOf exHist = [] := by decide +kernel
    simp [this])).1 _ _ h rfl

end Braid.Book
