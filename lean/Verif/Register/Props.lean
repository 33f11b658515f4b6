import Verif.Register.Inv

/-
C29–C31: one actor per id, the global limit, node-unique types.
-/
namespace Braid.Register
open AddressBook Spec

variable {cfg : Nat → NodeCfg} {factory : Nat → String → Option Int}

/-! ### Examples -/

/-- Three nodes and more, with different addresses. -/
def exCfg (n : Nat) : NodeCfg := ⟨String.ofList (List.replicate (n + 1) 'a'), "10.0.0.1", n⟩

/-- Every node knows every type. -/
def exFactory (_ : Nat) (_ : String) : Option Int := some 1

/-- A check of `Exclusive` for a given history. -/
def check {κ : Type} [DecidableEq κ] (key : Op → Option κ) : List (Nat × Op) → List Ev → Bool
  | _, [] => true
  | act, .begin g o :: r =>
    act.all (fun p => decide (key o = none) || decide (key p.2 ≠ key o)) && check key ((g, o) :: act) r
  | act, .finish g _ :: r => check key (act.filter (·.1 ≠ g)) r
  | act, .created _ _ :: r => check key act r
  | act, .exited _ :: r => check key act r

theorem check_sound {κ : Type} [DecidableEq κ] (key : Op → Option κ) : ∀ (r pre0 : List Ev),
    check key (activeOf pre0) r = true → ∀ pre g o post, r = pre ++ .begin g o :: post →
      ∀ p ∈ activeOf (pre0 ++ pre), ∀ k, key o = some k → key p.2 ≠ some k
  | [], _, _, pre, g, o, post, he => by simp at he
  | e :: r, pre0, hc, pre, g, o, post, he => by
    have ih := check_sound key r (pre0 ++ [e])
    rw [activeOf_concat] at ih
    cases pre with
    | nil =>
      simp only [List.nil_append, List.cons.injEq] at he
      obtain ⟨rfl, rfl⟩ := he
      simp only [check, Bool.and_eq_true, List.all_eq_true, Bool.or_eq_true, decide_eq_true_eq] at hc
      intro p hp k hk
      rw [List.append_nil] at hp
      rcases hc.1 p hp with h | h
      · rw [h] at hk; cases hk
      · rw [← hk]; exact h
    | cons x pre =>
      simp only [List.cons_append, List.cons.injEq] at he
      obtain ⟨rfl, rfl⟩ := he
      intro p hp
      refine ih ?_ pre g o post rfl p (by simpa using hp)
      cases e with
      | begin g' o' => simp only [check, Bool.and_eq_true] at hc; exact hc.2
      | finish => exact hc
      | created => exact hc
      | exited => exact hc

theorem exclusive_of_check {κ : Type} [DecidableEq κ] {key : Op → Option κ} {h : List Ev}
    (hc : check key [] h = true) : Exclusive key h :=
  fun pre g o post he p hp => check_sound key h [] hc pre g o post he p (by simpa using hp)

/-! ### C29 -/

/-- C29: `Register` of an id that the node has returns `ErrActorRegisterRepeat` and changes nothing. This
holds in every state, whatever the other goroutines do. -/
theorem C29_duplicate (s : State) (g n : Nat) (b : Builder) (hpc : s.pc g = .rMap n b) (hid : b.id ≠ "")
    (hty : b.ty ≠ "") (hex : ∃ i, get (s.map n) b.id = some i) :
    step cfg factory s (.go g) = some ({ s with pc := upd s.pc g .idle }, [.finish g .repeated]) := by
  obtain ⟨i, hi⟩ := hex
  simp [step, stepGo, hpc, hid, hty, hi, ret]

/-- C29: and it is returned only then. -/
theorem C29_duplicate_only {h : List Ev} {s : State} (hr : (sys cfg factory).Run h s) (g : Nat)
    (hf : .finish g .repeated ∈ h) : ∃ h0 s0 n b i rest, (sys cfg factory).Run h0 s0 ∧
      h = h0 ++ [.finish g .repeated] ++ rest ∧ .begin g (.reg n b) ∈ h0 ∧ get (s0.map n) b.id = some i := by
  obtain ⟨h0, s0, a, s1, evs, rest, hr0, hs, he, rfl⟩ := hr.split hf
  replace hs : step cfg factory s0 a = some (s1, evs) := hs
  have hb : ∀ n b, s0.pc g = .rMap n b → .begin g (.reg n b) ∈ h0 := fun n b h => begun hr0 (by rw [h]; rfl)
  rg_cases hs
  all_goals simp only [List.mem_singleton, Ev.finish.injEq, reduceCtorEq, and_false, List.not_mem_nil] at he
  all_goals try (exact he.elim)
  all_goals
    obtain ⟨rfl, -⟩ := he
    rename_i n b _ hg hpc
    cases hget : get (s0.map n) b.id with
    | none => exact absurd hget hg
    | some i => exact ⟨h0, s0, n, b, i, rest, hr0, rfl, hb _ _ hpc, hget⟩

/-- C29, the part that holds: if no two operations on the same id of the same node overlap, there are never
two live actors with the same id on a node. Other operations, on other ids or nodes, and the cleanup in
`Call` may run at any time. Missing: overlapping operations on one id, see `C29_concurrent_refuted`. -/
theorem C29_one_per_id_partial {h : List Ev} {s : State} (hr : (sys cfg factory).Run h s)
    (hx : Exclusive idKey h) {i j : Nat} {a b : Inst} (ha : Alive h i a) (hb : Alive h j b)
    (hn : a.node = b.node) (hid : a.id = b.id) : i = j := by
  have hh := invH_run hr
  have live : ∀ {i a}, Alive h i a → s.inst i = a ∧ s.alive i = true := by
    rintro i a ⟨h1, h2⟩
    rw [hh.created] at h1
    rw [hh.exited] at h2
    refine ⟨h1.2, ?_⟩
    cases h : s.alive i with
    | true => rfl
    | false => exact absurd ⟨h1.1, h⟩ h2
  obtain ⟨a1, a2⟩ := live ha
  obtain ⟨b1, b2⟩ := live hb
  exact invId_unique (invN_run hr) (exclusive_ex hr hx) (invId_run hr hx) a2 b2 (by rw [a1, b1, hn])
    (by rw [a1, b1, hid])

/-- The actor "x" of type "t", without limits. -/
def bx : Builder := ⟨"x", "t", 1, 0, false⟩

/-- Two goroutines register it on node 0: both look into the map and the `IDMap` first. -/
def raceActs : List Act :=
  [.start 0 (.reg 0 bx), .start 1 (.reg 0 bx), .go 0, .go 1, .go 0, .go 1] ++
  List.replicate 9 (.go 0) ++ List.replicate 9 (.go 1)

set_option maxRecDepth 20000 in
/-- C29 is violated by two goroutines that register the same id on a node at the same time: both succeed, and
there are two live actors. The first is no longer in the map, so that nothing can reach or stop it. -/
theorem C29_concurrent_refuted : ∃ h s, (sys exCfg exFactory).Run h s ∧
    Alive h 0 ⟨0, "x", "t"⟩ ∧ Alive h 1 ⟨0, "x", "t"⟩ ∧ .finish 0 .ok ∈ h ∧ .finish 1 .ok ∈ h ∧
    s.map 0 = [("x", 1)] ∧ s.pc 0 = .idle ∧ s.pc 1 = .idle := by
  refine ⟨_, _, Lts.run_of_exec (M := sys exCfg exFactory) (as := raceActs) rfl, ?_, ?_, ?_, ?_, rfl, rfl, rfl⟩
  · exact ⟨by decide, by decide⟩
  · exact ⟨by decide, by decide⟩
  · decide
  · decide

/-- Register, register again, unregister, register. -/
def seqActs : List Act :=
  .start 0 (.reg 0 bx) :: List.replicate 11 (.go 0) ++ [.start 1 (.reg 0 bx), .go 1] ++
  .start 1 (.unreg 0 "x" "t") :: List.replicate 11 (.go 1) ++ .start 0 (.reg 0 bx) :: List.replicate 11 (.go 0)

set_option maxRecDepth 20000 in
example : ∃ h s, (sys exCfg exFactory).Run h s ∧ Exclusive idKey h ∧ .finish 1 .repeated ∈ h ∧
    .exited 0 ∈ h ∧ Alive h 1 ⟨0, "x", "t"⟩ := by
  refine ⟨_, _, Lts.run_of_exec (M := sys exCfg exFactory) (as := seqActs) rfl, ?_, ?_, ?_, ?_⟩
  · exact exclusive_of_check (by decide)
  · decide
  · decide
  · exact ⟨by decide, by decide⟩

/-! ### C30 -/

/-- C30, the part that holds: if the `Register` calls of a type do not overlap anywhere in the cluster, the
number of records of the type never exceeds the limit. Calls for other types, `Unregister` calls and the
cleanup in `Call` may run at any time, and any Redis command may fail. Missing: overlapping calls, see
`C30_concurrent_refuted`. -/
theorem C30_limit_partial {h : List Ev} {s : State} (hr : (sys cfg factory).Run h s) (ty : String) (L : Int)
    (hL : 0 < L) (hlim : ∀ g n b, .begin g (.reg n b) ∈ h → b.ty = ty → b.limit = L)
    (hx : Exclusive typeKey h) : ((s.W.redis.tys ty).length : Int) ≤ L :=
  (invC_run hL hr hx hlim).le

/-- Two actors of a type of which there may be one. -/
def lx : Builder := ⟨"x", "t", 1, 1, false⟩
def ly : Builder := ⟨"y", "t", 1, 1, false⟩

/-- Both count before either has added its record. -/
def limitActs : List Act :=
  [.start 0 (.reg 0 lx), .start 1 (.reg 1 ly), .go 0, .go 1, .go 0, .go 1] ++
  List.replicate 10 (.go 0) ++ List.replicate 10 (.go 1)

set_option maxRecDepth 20000 in
/-- C30 is violated by two nodes that register actors of a type at the same time: the limit is one, and there
are two records and two live actors. -/
theorem C30_concurrent_refuted : ∃ h s, (sys exCfg exFactory).Run h s ∧
    (∀ g n b, .begin g (.reg n b) ∈ h → b.ty = "t" ∧ b.limit = 1) ∧
    (s.W.redis.tys "t").length = 2 ∧ Alive h 0 ⟨0, "x", "t"⟩ ∧ Alive h 1 ⟨1, "y", "t"⟩ := by
  refine ⟨_, _, Lts.run_of_exec (M := sys exCfg exFactory) (as := limitActs) rfl, ?_, ?_, ?_, ?_⟩
  · intro g n b hb
    simp at hb
    rcases hb with ⟨-, -, rfl⟩ | ⟨-, -, rfl⟩ <;> decide
  · decide +kernel
  · exact ⟨by decide, by decide⟩
  · exact ⟨by decide, by decide⟩

/-- "x" is registered, its record is removed by a cleanup, and "y" is registered. -/
def cleanActs : List Act :=
  .start 0 (.reg 0 lx) :: List.replicate 12 (.go 0) ++ .start 1 (.clean 1 "x" 1) :: List.replicate 7 (.go 1) ++
  .start 1 (.reg 1 ly) :: List.replicate 12 (.go 1)

set_option maxRecDepth 20000 in
/-- A limit of `C30_limit_partial`: it counts records. Once the cleanup in a `Call` has removed the record of a
live actor (which happens, see `System.C26_same_address_refuted`), the limit no longer counts it, and two
actors of the type live, even though no two operations overlapped. -/
theorem C30_cleanup_refuted : ∃ h s, (sys exCfg exFactory).Run h s ∧
    (∀ g n b, .begin g (.reg n b) ∈ h → b.ty = "t" ∧ b.limit = 1) ∧
    Exclusive typeKey h ∧ Exclusive idKey h ∧ Alive h 0 ⟨0, "x", "t"⟩ ∧ Alive h 1 ⟨1, "y", "t"⟩ := by
  refine ⟨_, _, Lts.run_of_exec (M := sys exCfg exFactory) (as := cleanActs) rfl, ?_, ?_, ?_, ?_, ?_⟩
  · intro g n b hb
    simp at hb
    rcases hb with ⟨-, -, rfl⟩ | ⟨-, -, rfl⟩ <;> decide
  · exact exclusive_of_check (by decide)
  · exact exclusive_of_check (by decide)
  · exact ⟨by decide, by decide⟩
  · exact ⟨by decide, by decide⟩

/-- One after the other: the second is refused. -/
def limitSeqActs : List Act :=
  .start 0 (.reg 0 lx) :: List.replicate 12 (.go 0) ++ [.start 1 (.reg 1 ly), .go 1, .go 1]

set_option maxRecDepth 20000 in
example : ∃ h s, (sys exCfg exFactory).Run h s ∧ Exclusive typeKey h ∧
    (∀ g n b, .begin g (.reg n b) ∈ h → b.ty = "t" → b.limit = 1) ∧ .finish 1 .err ∈ h ∧
    (s.W.redis.tys "t").length = 1 := by
  refine ⟨_, _, Lts.run_of_exec (M := sys exCfg exFactory) (as := limitSeqActs) rfl, ?_, ?_, ?_, ?_⟩
  · exact exclusive_of_check (by decide)
  · intro g n b hb
    simp at hb
    rcases hb with ⟨-, -, rfl⟩ | ⟨-, -, rfl⟩ <;> decide
  · decide
  · decide +kernel

/-! ### C31 -/

/-- C31, the part that holds: if a type is node-unique and has a limit other than 0, and no two operations on
the same id of a node and no two `Register` calls for the type on a node overlap, then there are never two
live actors of the type on a node. Missing: limit 0 and overlapping calls, see the refutations. -/
theorem C31_node_unique_partial {h : List Ev} {s : State} (hr : (sys cfg factory).Run h s) (n : Nat) (ty : String)
    (hu : ∀ g b, .begin g (.reg n b) ∈ h → b.ty = ty → b.unique = true ∧ b.limit ≠ 0)
    (hx : Exclusive idKey h) (hx2 : Exclusive nodeTypeKey h) {i j : Nat} {a b : Inst} (ha : Alive h i a)
    (hb : Alive h j b) (han : a.node = n) (hbn : b.node = n) (hat : a.ty = ty) (hbt : b.ty = ty) : i = j := by
  have hh := invH_run hr
  have live : ∀ {i a}, Alive h i a → s.inst i = a ∧ s.alive i = true := by
    rintro i a ⟨h1, h2⟩
    rw [hh.created] at h1
    rw [hh.exited] at h2
    refine ⟨h1.2, ?_⟩
    cases h : s.alive i with
    | true => rfl
    | false => exact absurd ⟨h1.1, h⟩ h2
  obtain ⟨a1, a2⟩ := live ha
  obtain ⟨b1, b2⟩ := live hb
  exact (invTy_run hr hx hx2 hu).uniq i j a2 b2 (by rw [a1, han]) (by rw [b1, hbn]) (by rw [a1, hat])
    (by rw [b1, hbt])

/-- Two actors of a node-unique type without a global limit. -/
def ux : Builder := ⟨"x", "t", 1, 0, true⟩
def uy : Builder := ⟨"y", "t", 1, 0, true⟩

def uniqueActs : List Act :=
  .start 0 (.reg 0 ux) :: List.replicate 11 (.go 0) ++ .start 0 (.reg 0 uy) :: List.replicate 11 (.go 0)

set_option maxRecDepth 20000 in
/-- C31 is violated by types without a global limit (0, the default): the check is skipped, and one goroutine
registers two actors of the type on a node. -/
theorem C31_no_limit_refuted : ∃ h s, (sys exCfg exFactory).Run h s ∧
    (∀ g n b, .begin g (.reg n b) ∈ h → b.ty = "t" ∧ b.unique = true) ∧
    Exclusive idKey h ∧ Exclusive nodeTypeKey h ∧ Alive h 0 ⟨0, "x", "t"⟩ ∧ Alive h 1 ⟨0, "y", "t"⟩ ∧
    s.map 0 = [("y", 1), ("x", 0)] := by
  refine ⟨_, _, Lts.run_of_exec (M := sys exCfg exFactory) (as := uniqueActs) rfl, ?_, ?_, ?_, ?_, ?_, rfl⟩
  · intro g n b hb
    simp at hb
    rcases hb with ⟨-, -, rfl⟩ | ⟨-, -, rfl⟩ <;> decide
  · exact exclusive_of_check (by decide)
  · exact exclusive_of_check (by decide)
  · exact ⟨by decide, by decide⟩
  · exact ⟨by decide, by decide⟩

/-- The same with a limit of 5. -/
def vx : Builder := ⟨"x", "t", 1, 5, true⟩
def vy : Builder := ⟨"y", "t", 1, 5, true⟩

def uniqueRaceActs : List Act :=
  [.start 0 (.reg 0 vx), .start 1 (.reg 0 vy), .go 0, .go 1, .go 0, .go 1] ++
  List.replicate 11 (.go 0) ++ List.replicate 11 (.go 1)

set_option maxRecDepth 20000 in
/-- C31 is violated by two goroutines that register actors of a node-unique type at the same time, with any
limit that admits two. -/
theorem C31_concurrent_refuted : ∃ h s, (sys exCfg exFactory).Run h s ∧
    (∀ g n b, .begin g (.reg n b) ∈ h → b.ty = "t" ∧ b.unique = true ∧ b.limit = 5) ∧
    Exclusive idKey h ∧ Alive h 0 ⟨0, "x", "t"⟩ ∧ Alive h 1 ⟨0, "y", "t"⟩ := by
  refine ⟨_, _, Lts.run_of_exec (M := sys exCfg exFactory) (as := uniqueRaceActs) rfl, ?_, ?_, ?_, ?_⟩
  · intro g n b hb
    simp at hb
    rcases hb with ⟨-, -, rfl⟩ | ⟨-, -, rfl⟩ <;> decide
  · exact exclusive_of_check (by decide)
  · exact ⟨by decide, by decide⟩
  · exact ⟨by decide, by decide⟩

def uniqueSeqActs : List Act :=
  .start 0 (.reg 0 vx) :: List.replicate 13 (.go 0) ++ [.start 1 (.reg 0 vy), .go 1, .go 1]

set_option maxRecDepth 20000 in
example : ∃ h s, (sys exCfg exFactory).Run h s ∧ Exclusive idKey h ∧ Exclusive nodeTypeKey h ∧
    (∀ g b, .begin g (.reg 0 b) ∈ h → b.ty = "t" → b.unique = true ∧ b.limit ≠ 0) ∧
    .finish 1 .err ∈ h ∧ Alive h 0 ⟨0, "x", "t"⟩ := by
  refine ⟨_, _, Lts.run_of_exec (M := sys exCfg exFactory) (as := uniqueSeqActs) rfl, ?_, ?_, ?_, ?_, ?_⟩
  · exact exclusive_of_check (by decide)
  · exact exclusive_of_check (by decide)
  · intro g b hb
    simp at hb
    rcases hb with ⟨-, rfl⟩ | ⟨-, rfl⟩ <;> decide
  · decide
  · exact ⟨by decide, by decide⟩

end Braid.Register
