import Verif.AddressBook.Bounded
import Verif.AddressBook.Props
import Mathlib.Data.List.Induction

/-
Property C33 with counters of 64 bits, and for all histories.
-/
namespace Braid.AddressBook
open Spec

variable {cfg : Nat → NodeCfg} {own : String → Nat}

/-! ### Each operation -/

/-- C33: whatever happened before, a `Register` that returns nil adds its weight to the load of its node and to the load of the type
there, and changes no other load; one that fails changes none. -/
theorem C33_register (W : World) (n : Nat) (ty id : String) (w : Int) (k : String) (f : Field) :
    (hget f ((register cfg none W n ty id w).1.redis.load k)).getD 0 = (hget f (W.redis.load k)).getD 0 +
      if (register cfg none W n ty id w).2 = true ∧ k = (cfg n).nodeID ∧ (f = .total ∨ f = .actor ty) then w else 0 := by
  unfold register
  split
  · simp
  · split
    · simp
    · simp only [registerCmds, Redis.pipe, List.foldl, Redis.run]
      by_cases hk : k = (cfg n).nodeID
      · subst hk
        simp only [set_same, hget_hincrBy]
        cases f <;> grind
      · simp [set_apply, hk]

/-- C33: and an `Unregister` that returns nil takes the weight it was given from the load of its node and from the load there of the
type that is on record for the id. -/
theorem C33_unregister (W : World) (n : Nat) (id : String) (w : Int) (k : String) (f : Field) :
    (hget f ((unregister cfg none W n id w).1.redis.load k)).getD 0 = (hget f (W.redis.load k)).getD 0 -
      if (unregister cfg none W n id w).2 = true ∧ k = (cfg n).nodeID ∧
        (f = .total ∨ ∃ a, W.redis.ids id = some a ∧ f = .actor a.actorTy) then w else 0 := by
  unfold unregister
  split
  · simp
  · cases ha : W.redis.ids id with
    | none => simp
    | some a =>
      simp only [unregisterCmds, Redis.pipe, List.foldl, Redis.run]
      by_cases hk : k = (cfg n).nodeID
      · subst hk
        simp only [set_same, hget_hincrBy]
        cases f with
        | total => simp; omega
        | actor ty =>
          by_cases ht : ty = a.actorTy
          · subst ht; simp; omega
          · simp [ht]
      · simp [set_apply, hk]

/-! ### 64 bits -/

theorem pipe64_ok : ∀ (cs : List Cmd) (r : Redis),
    (∀ a n f w b, cs = a ++ .hincr n f w :: b → fits64 ((hget f ((r.pipe a).load n)).getD 0 + w) = true) →
    r.pipe64 cs = (r.pipe cs, true)
  | [], r, _ => rfl
  | c :: cs, r, h => by
    have h1 : r.run64 c = (r.run c, true) := by
      cases c <;> try rfl
      rename_i n f w
      have := h [] n f w cs rfl
      simp only [Redis.pipe, List.foldl_nil] at this
      simp [Redis.run64, this]
    have ih := pipe64_ok cs (r.run c) fun a n f w b e => by
      have := h (c :: a) n f w b (by rw [e]; rfl)
      simpa [Redis.pipe] using this
    simp [Redis.pipe64, h1, ih, Redis.pipe]

theorem register64_ok {W : World} {n : Nat} {ty id : String} {w : Int}
    (h1 : fits64 ((hget (.actor ty) ((register cfg none W n ty id w).1.redis.load (cfg n).nodeID)).getD 0) = true)
    (h2 : fits64 ((hget .total ((register cfg none W n ty id w).1.redis.load (cfg n).nodeID)).getD 0) = true) :
    register64 cfg W n ty id w = register cfg none W n ty id w := by
  unfold register64
  by_cases hc : id = "" ∨ ty = ""
  · simp [register, hc]
  · by_cases hm : W.idmap n id = true
    · simp [register, hc, hm]
    · simp only [register, hc, hm] at h1 h2 ⊢
      simp only [Bool.false_eq_true, if_false] at h1 h2 ⊢
      rw [pipe64_ok]
      intro a n' f w' b e
      simp only [registerCmds, Redis.pipe, List.foldl, Redis.run] at h1 h2
      simp [hget_hincrBy] at h1 h2
      rcases a with _ | ⟨c1, _ | ⟨c2, _ | ⟨c3, _ | ⟨c4, _ | ⟨c5, a⟩⟩⟩⟩⟩ <;> simp [registerCmds] at e
      · obtain ⟨rfl, rfl, rfl, ⟨rfl, rfl, rfl⟩, -⟩ := e
        simpa [Redis.pipe, Redis.run] using h1
      · obtain ⟨rfl, rfl, rfl, rfl, ⟨rfl, rfl, rfl⟩, -⟩ := e
        simpa [Redis.pipe, Redis.run, hget_hincrBy] using h2

theorem unregister64_ok {W : World} {n : Nat} {id : String} {w : Int} (hw : w ≠ -2 ^ 63)
    (h1 : ∀ a, W.redis.ids id = some a →
      fits64 ((hget (.actor a.actorTy) ((unregister cfg none W n id w).1.redis.load (cfg n).nodeID)).getD 0) = true)
    (h2 : fits64 ((hget .total ((unregister cfg none W n id w).1.redis.load (cfg n).nodeID)).getD 0) = true) :
    unregister64 cfg W n id w = unregister cfg none W n id w := by
  unfold unregister64
  by_cases hc : id = ""
  · simp [unregister, hc]
  · cases ha : W.redis.ids id with
    | none => simp [unregister, hc, ha]
    | some a =>
      have h1 := h1 a ha
      have he : unregisterCmds64 cfg n a id w = unregisterCmds cfg n a id w := by
        simp only [unregisterCmds64, unregisterCmds, neg64, if_neg hw]
      simp only [unregister, hc, ha, he] at h1 h2 ⊢
      simp only [if_false] at h1 h2 ⊢
      rw [pipe64_ok]
      intro b n' f w' c e
      simp only [unregisterCmds, Redis.pipe, List.foldl, Redis.run] at h1 h2
      simp [hget_hincrBy] at h1 h2
      rcases b with _ | ⟨c1, _ | ⟨c2, _ | ⟨c3, _ | ⟨c4, b⟩⟩⟩⟩ <;> simp [unregisterCmds] at e
      · obtain ⟨rfl, rfl, ⟨rfl, rfl, rfl⟩, -⟩ := e
        simpa [Redis.pipe, Redis.run] using h1
      · obtain ⟨rfl, rfl, rfl, ⟨rfl, rfl, rfl⟩, -⟩ := e
        simpa [Redis.pipe, Redis.run, hget_hincrBy] using h2

/-- C33 with counters of 64 bits, in part: as long as the sums fit, nothing is different. -/
theorem C33_bounded_partial (hd : DistinctNodes cfg) (ops : List Op) (hl : LegalOps own ops)
    (hm : ∀ n id w, .unregister n id w ∈ ops → w ≠ -2 ^ 63)
    (hf : ∀ pre post, ops = pre ++ post → ∀ n, fits64 (weightOf (dir pre) (·.node = n)) = true ∧
      ∀ ty, fits64 (weightOf (dir pre) fun r => r.node = n ∧ r.ty = ty) = true) :
    runOps64 cfg ops = runOps cfg ops := by
  induction ops using List.reverseRecOn with
  | nil => rfl
  | append_singleton ops op ih =>
    have ih := ih (legalOps_snoc hl).1 (fun n id w h => hm n id w (by simp [h]))
      fun pre post e => hf pre (post ++ [op]) (by rw [e]; simp)
    have h1 := C33_load_is_sum_partial hd (ops ++ [op]) hl
    have h2 := hf (ops ++ [op]) [] (by simp)
    have e1 : runOps cfg (ops ++ [op]) = apply cfg (runOps cfg ops) op := by simp [runOps]
    have e2 : runOps64 cfg (ops ++ [op]) = apply64 cfg (runOps64 cfg ops) op := by simp [runOps64]
    have h3 : ∀ n, fits64 ((hget .total ((apply cfg (runOps cfg ops) op).redis.load (cfg n).nodeID)).getD 0) = true ∧
        ∀ ty, fits64 ((hget (.actor ty) ((apply cfg (runOps cfg ops) op).redis.load (cfg n).nodeID)).getD 0) = true := by
      intro n
      rw [← e1]
      refine ⟨?_, fun ty => ?_⟩
      · have := (h1 n).1
        rw [totalWeight] at this
        rw [this]; exact (h2 n).1
      · rw [(h1 n).2 ty]; exact (h2 n).2 ty
    rw [e1, e2, ih]
    cases op with
    | register n ty id w => exact congrArg Prod.fst (register64_ok ((h3 n).2 ty) (h3 n).1)
    | unregister n id w =>
      exact congrArg Prod.fst (unregister64_ok (hm n id w (by simp)) (fun a _ => (h3 n).2 a.actorTy) (h3 n).1)
    | clear n => rfl

example : LegalOps exOwn exOps ∧ runOps64 exCfg exOps = runOps exCfg exOps := by
  refine ⟨exOps_legal, C33_bounded_partial exCfg_distinct exOps exOps_legal ?_ ?_⟩
  · intro n id w h
    simp [exOps] at h
    omega
  · intro pre post e n
    rcases pre with _ | ⟨c1, _ | ⟨c2, _ | ⟨c3, _ | ⟨c4, _ | ⟨c5, _ | ⟨c6, a⟩⟩⟩⟩⟩⟩ <;> simp [exOps] at e
    · exact ⟨rfl, fun ty => rfl⟩
    all_goals
      (try obtain ⟨rfl, rfl, rfl, rfl, rfl, -⟩ := e)
      (try obtain ⟨rfl, rfl, -⟩ := e)
      (try obtain ⟨rfl, -⟩ := e)
      refine ⟨?_, fun ty => ?_⟩ <;> simp [dir, dirStep, weightOf, List.filter_cons] <;> repeat' split
      all_goals decide

/-- C33 with counters of 64 bits fails when the sum does not fit: the second `Register` returns an error, its actor is on record and
is counted for the quantity limit, and its weight is in no load. -/
theorem C33_overflow_refuted :
    let ops : List Op := [.register 0 "t" "x" (2 ^ 62)]
    let r := register64 exCfg (runOps64 exCfg ops) 0 "t" "y" (2 ^ 62)
    r.2 = false ∧ getByID exCfg r.1 1 "y" = .ok ⟨"y", "t", "a", "10.0.0.1", 0⟩ ∧ getActorTypeCount r.1 "t" = 2 ∧
      totalWeight r.1 "a" = some (2 ^ 62) := by
  decide +kernel

end Braid.AddressBook
