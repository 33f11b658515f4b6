import Verif.AddressBook.Refine

/-! Lemmas for C37: a pipeline of `Register` that is broken off and run again. -/

namespace Braid.AddressBook

variable {cfg : Nat → NodeCfg}

/-- The first `k` commands of the pipeline and then all of them: the same records as all of them alone. -/
theorem pipe_again (r : Redis) (k n : Nat) (ty id : String) (w : Int) :
    let r1 := r.pipe ((registerCmds cfg n ty id w).take k)
    (r1.pipe (registerCmds cfg n ty id w)).ids = (r.pipe (registerCmds cfg n ty id w)).ids ∧
    (r1.pipe (registerCmds cfg n ty id w)).tys = (r.pipe (registerCmds cfg n ty id w)).tys ∧
    (r1.pipe (registerCmds cfg n ty id w)).nodes = (r.pipe (registerCmds cfg n ty id w)).nodes := by
  match k with
  | 0 => simp [Redis.pipe]
  | 1 | 2 | 3 | 4 | k + 5 =>
    simp only [registerCmds, Redis.pipe, List.take_succ_cons, List.take_zero, List.take_nil, List.foldl_cons,
      List.foldl_nil, Redis.run]
    refine ⟨?_, ?_, ?_⟩ <;> first | trivial | (funext x; simp only [set_apply]; grind)

/-- What the first `k` commands of the pipeline do to the counters. -/
theorem pipe_load (r : Redis) (k n : Nat) (ty id : String) (w : Int) :
    let r1 := r.pipe ((registerCmds cfg n ty id w).take k)
    (hget .total (r1.load (cfg n).nodeID)).getD 0 =
      (hget .total (r.load (cfg n).nodeID)).getD 0 + (if 5 ≤ k then w else 0) ∧
    (hget (.actor ty) (r1.load (cfg n).nodeID)).getD 0 =
      (hget (.actor ty) (r.load (cfg n).nodeID)).getD 0 + (if 4 ≤ k then w else 0) := by
  match k with
  | 0 => simp [Redis.pipe]
  | 1 | 2 | 3 | 4 | k + 5 =>
    simp [registerCmds, Redis.pipe, Redis.run, set_same, hget_hincrBy]

/-- A call that is broken off after `k` commands. -/
theorem register_fault (W : World) (k n : Nat) {ty id : String} (w : Int) (hid : id ≠ "") (hty : ty ≠ "")
    (hfree : W.idmap n id = false) : register cfg (some k) W n ty id w =
      ({ W with redis := W.redis.pipe ((registerCmds cfg n ty id w).take k) }, false) := by
  simp [register, hid, hty, hfree]

/-- Any number of calls that are broken off. -/
theorem fault_all (n : Nat) {ty id : String} (w : Int) (hid : id ≠ "") (hty : ty ≠ "") (ks : List Nat)
    (W : World) (hfree : W.idmap n id = false) :
    let W1 := ks.foldl (fun V k => (register cfg (some k) V n ty id w).1) W
    W1.idmap = W.idmap ∧
    (W1.redis.pipe (registerCmds cfg n ty id w)).ids = (W.redis.pipe (registerCmds cfg n ty id w)).ids ∧
    (W1.redis.pipe (registerCmds cfg n ty id w)).tys = (W.redis.pipe (registerCmds cfg n ty id w)).tys ∧
    (W1.redis.pipe (registerCmds cfg n ty id w)).nodes = (W.redis.pipe (registerCmds cfg n ty id w)).nodes ∧
    (hget .total (W1.redis.load (cfg n).nodeID)).getD 0 =
      (hget .total (W.redis.load (cfg n).nodeID)).getD 0 + (ks.countP (5 ≤ ·)) * w ∧
    (hget (.actor ty) (W1.redis.load (cfg n).nodeID)).getD 0 =
      (hget (.actor ty) (W.redis.load (cfg n).nodeID)).getD 0 + (ks.countP (4 ≤ ·)) * w := by
  induction ks generalizing W with
  | nil => simp
  | cons k ks ih =>
    have hreg := register_fault (cfg := cfg) W k n w hid hty hfree
    obtain ⟨a1, a2, a3⟩ := pipe_again (cfg := cfg) W.redis k n ty id w
    obtain ⟨l1, l2⟩ := pipe_load (cfg := cfg) W.redis k n ty id w
    simp only [List.foldl_cons, hreg]
    obtain ⟨h1, h2, h3, h4, h5, h6⟩ :=
      ih { W with redis := W.redis.pipe ((registerCmds cfg n ty id w).take k) } hfree
    refine ⟨h1, h2.trans a1, h3.trans a2, h4.trans a3, ?_, ?_⟩
    · rw [h5]; simp only [l1, List.countP_cons]
      by_cases hk : 5 ≤ k <;> simp [hk, Int.add_mul] <;> omega
    · rw [h6]; simp only [l2, List.countP_cons]
      by_cases hk : 4 ≤ k <;> simp [hk, Int.add_mul] <;> omega

end Braid.AddressBook
