import Verif.AddressBook.Retry
import Verif.AddressBook.Props

/-! C37, continued: what trying `Register` again does. -/

namespace Braid.AddressBook

variable {cfg : Nat → NodeCfg}

/-- C37: after any number of calls of `Register` that were broken off, each after any number of commands, one that is
not broken off returns nil and leaves the same records by id, by type and of the nodes, and the same local maps, as if it
had been the only one. But the weight is counted once more for every call that was broken off after the counter was
increased: the fourth command for that of the type, the fifth for the total. -/
theorem C37_retry_exact (ks : List Nat) (W : World) (n : Nat) (ty id : String) (w : Int) (hid : id ≠ "")
    (hty : ty ≠ "") (hfree : W.idmap n id = false) :
    let W1 := ks.foldl (fun V k => (register cfg (some k) V n ty id w).1) W
    let once := (register cfg none W n ty id w).1
    let W2 := (register cfg none W1 n ty id w).1
    (register cfg none W1 n ty id w).2 = true ∧
    W2.redis.ids = once.redis.ids ∧ W2.redis.tys = once.redis.tys ∧ W2.redis.nodes = once.redis.nodes ∧
    W2.idmap = once.idmap ∧
    totalWeight W2 (cfg n).nodeID =
      some ((totalWeight W (cfg n).nodeID).getD 0 + (1 + ks.countP (5 ≤ ·)) * w) ∧
    hget (.actor ty) (W2.redis.load (cfg n).nodeID) =
      some ((hget (.actor ty) (W.redis.load (cfg n).nodeID)).getD 0 + (1 + ks.countP (4 ≤ ·)) * w) := by
  obtain ⟨h1, h2, h3, h4, h5, h6⟩ := fault_all (cfg := cfg) n w hid hty ks W hfree
  simp only
  generalize ks.foldl (fun V k => (register cfg (some k) V n ty id w).1) W = W1 at *
  have hf1 : W1.idmap n id = false := by rw [h1, hfree]
  have e : ∀ V : World, V.idmap n id = false → register cfg none V n ty id w =
      (⟨V.redis.pipe (registerCmds cfg n ty id w),
        fun m x => if m = n ∧ x = id then true else V.idmap m x⟩, true) := fun V hV => by
    simp [register, hid, hty, hV]
  have c := (C37_success_complete_partial (cfg := cfg) W1 n ty id w).1 (by rw [e W1 hf1])
  rw [e W1 hf1] at c
  rw [e W1 hf1, e W hfree]
  refine ⟨rfl, h2, h3, h4, by simp [h1], ?_, ?_⟩
  · have := c.2.2.2.1
    simp only [totalWeight] at this ⊢
    rw [this, h5, Int.add_mul]; congr 1; omega
  · have := c.2.2.2.2.1
    rw [this, h6, Int.add_mul]; congr 1; omega

/-- C37 fails for callers that try again: if all commands were executed and only the answer was lost, the weight of the
actor is on the node twice, and `Unregister` takes it off once: it stays when nothing is registered any more. -/
theorem C37_retry_refuted (cfg : Nat → NodeCfg) (n : Nat) (ty id : String) (w : Int) (hid : id ≠ "")
    (hty : ty ≠ "") :
    let W1 := (register cfg (some 5) World.init n ty id w).1
    let W2 := (register cfg none W1 n ty id w).1
    let W3 := (unregister cfg none W2 n id w).1
    (register cfg none W1 n ty id w).2 = true ∧ (unregister cfg none W2 n id w).2 = true ∧
    totalWeight W2 (cfg n).nodeID = some (2 * w) ∧ W3.redis.ids id = none ∧ getByType W3 ty = [] ∧
    totalWeight W3 (cfg n).nodeID = some w := by
  have h := C37_retry_exact (cfg := cfg) [5] World.init n ty id w hid hty rfl
  simp only [List.foldl_cons, List.foldl_nil] at h ⊢
  refine ⟨h.1, ?_⟩
  simp [register, unregister, hty, hid, World.init, registerCmds, unregisterCmds, Redis.pipe, Redis.run,
    getByType, totalWeight, addrOf, hincrBy, hget]
  omega

/-- Two calls are broken off, after two and after four commands; the third gets through. -/
example :
    let W1 := [2, 4].foldl (fun V k => (register exCfg (some k) V 0 "t" "x" 3).1) World.init
    let W2 := (register exCfg none W1 0 "t" "x" 3).1
    totalWeight W2 "a" = some 3 ∧ hget (.actor "t") (W2.redis.load "a") = some 6 := by
  decide +kernel

end Braid.AddressBook
