import Verif.AddressBook.Props

/-! C38, continued: how many nodes can register one id, and what one `Unregister` then does. -/

namespace Braid.AddressBook

open Spec

variable {cfg : Nat → NodeCfg}

/-- The nodes `0` to `k - 1` register the id, one after the other. -/
def allRegister (k : Nat) (ty id : String) (w : Int) : List Op :=
  (List.range k).map fun n => .register n ty id w

/-- C38 fails for any number of nodes: all of them register the same id with success, all are listed under the type, and
the record by id is that of the last one. -/
theorem C38_any_number_refuted (hd : DistinctNodes cfg) (ty id : String) (w : Int) (hid : id ≠ "") (hty : ty ≠ "")
    (k : Nat) :
    let W := runOps cfg (allRegister k ty id w)
    (register cfg none W k ty id w).2 = true ∧
    getByType W ty =
      (List.range k).map (fun n => ⟨id, ty, (cfg n).nodeID, (cfg n).ip, (cfg n).port⟩) ∧
    (∀ n x, W.idmap n x = true ↔ n < k ∧ x = id) ∧
    (∀ n, k = n + 1 → W.redis.ids id = some ⟨id, ty, (cfg n).nodeID, (cfg n).ip, (cfg n).port⟩) := by
  induction k with
  | zero => simp [allRegister, runOps, World.init, register, hid, hty, getByType]
  | succ k ih =>
    obtain ⟨-, h2, h3, -⟩ := ih
    have e : runOps cfg (allRegister (k + 1) ty id w) =
        apply cfg (runOps cfg (allRegister k ty id w)) (.register k ty id w) := by
      simp [allRegister, runOps, List.range_succ, List.foldl_append]
    simp only [e]
    simp only [getByType] at h2 ⊢
    generalize runOps cfg (allRegister k ty id w) = W at *
    have hf : W.idmap k id = false := by
      have := h3 k id
      simpa using this
    have hnew : addrOf cfg k ty id ∉ W.redis.tys ty := by
      rw [h2]
      simp only [List.mem_map, List.mem_range, not_exists, not_and, addrOf]
      intro n hn e
      have := hd n k (congrArg Addr.node e)
      omega
    have hr : apply cfg W (.register k ty id w) = ⟨W.redis.pipe (registerCmds cfg k ty id w),
        fun m x => if m = k ∧ x = id then true else W.idmap m x⟩ := by
      simp [apply, register, hid, hty, hf]
    rw [hr]
    refine ⟨?_, ?_, ?_, ?_⟩
    · have : W.idmap (k + 1) id = false := by
        cases hb : W.idmap (k + 1) id with
        | false => rfl
        | true => have := ((h3 _ _).1 hb).1; omega
      simp [register, hid, hty, this]
    · simp only [registerCmds, Redis.pipe, List.foldl_cons, List.foldl_nil, Redis.run, set_same, if_neg hnew]
      rw [h2, List.range_succ, List.map_append]; rfl
    · intro n x
      simp only [ite_eq_left_iff]
      have := h3 n x
      grind
    · intro n hn
      obtain rfl : k = n := by omega
      simp [registerCmds, Redis.pipe, Redis.run, addrOf]

/-- C38, the consequence: whichever node then unregisters the id, also one that has not registered it, no node
that has not registered it finds an actor of this id, and it is the last node that is taken off the list of the type,
while the weight is taken off the node that called; the other nodes that registered the id go on answering for it. -/
theorem C38_wrong_one_refuted (hd : DistinctNodes cfg) (ty id : String) (w : Int) (hid : id ≠ "") (hty : ty ≠ "")
    (k n : Nat) :
    let W := runOps cfg (allRegister (k + 1) ty id w)
    let W' := (unregister cfg none W n id w).1
    (unregister cfg none W n id w).2 = true ∧
    (∀ m, k < m → getByID cfg W' m id = .error .unknownActor) ∧
    getByType W' ty = (List.range k).map
      (fun n => ⟨id, ty, (cfg n).nodeID, (cfg n).ip, (cfg n).port⟩) ∧
    (∀ m, m ≤ k → m ≠ n → ∃ a, getByID cfg W' m id = .ok a ∧ a.node = (cfg m).nodeID) ∧
    (totalWeight W' (cfg n).nodeID).getD 0 = (totalWeight W (cfg n).nodeID).getD 0 - w ∧
    (∀ m, m ≠ n → totalWeight W' (cfg m).nodeID = totalWeight W (cfg m).nodeID) := by
  obtain ⟨-, h2, h3, h4⟩ := C38_any_number_refuted hd ty id w hid hty (k + 1)
  simp only
  simp only [getByType] at h2 ⊢
  generalize runOps cfg (allRegister (k + 1) ty id w) = W at *
  have h4 := h4 k rfl
  have hu : unregister cfg none W n id w =
      (⟨W.redis.pipe (unregisterCmds cfg n ⟨id, ty, (cfg k).nodeID, (cfg k).ip, (cfg k).port⟩ id w),
        fun m x => if m = n ∧ x = id then false else W.idmap m x⟩, true) := by
    simp [unregister, hid, h4]
  rw [hu]
  refine ⟨rfl, ?_, ?_, ?_, ?_, ?_⟩
  · intro m hm
    have : W.idmap m id = false := by
      have := h3 m id
      simp only [and_true] at this
      cases hb : W.idmap m id with
      | false => rfl
      | true => have := this.1 hb; omega
    simp [getByID, hid, this, unregisterCmds, Redis.pipe, Redis.run]
  · simp only [unregisterCmds, Redis.pipe, List.foldl_cons, List.foldl_nil, Redis.run, set_same, h2]
    rw [List.range_succ, List.map_append, List.filter_append, List.filter_eq_self.2]
    · simp
    · intro a ha
      obtain ⟨j, hj, rfl⟩ := List.mem_map.1 ha
      simp only [ne_eq, decide_not, Bool.not_eq_true', decide_eq_false_iff_not]
      intro e
      have := hd j k (congrArg Addr.node e)
      have := List.mem_range.1 hj
      omega
  · intro m hm hne
    have : W.idmap m id = true := (h3 m id).2 ⟨by omega, rfl⟩
    exact ⟨⟨id, "", (cfg m).nodeID, (cfg m).ip, (cfg m).port⟩, by simp [getByID, hid, hne, this], rfl⟩
  · simp [unregisterCmds, Redis.pipe, Redis.run, totalWeight, hget_hincrBy, Int.sub_eq_add_neg]
  · intro m hm
    have : (cfg m).nodeID ≠ (cfg n).nodeID := fun e => hm (hd _ _ e)
    simp [unregisterCmds, Redis.pipe, Redis.run, totalWeight, set_apply, this]

example : (getByType (runOps exCfg (allRegister 3 "t" "x" 1)) "t").length = 3 := by
  rw [(C38_any_number_refuted exCfg_distinct "t" "x" 1 (by decide) (by decide) 3).2.1]; rfl

/-- Node 0 unregisters, and node 2's actor disappears from the list. -/
example : (getByType (unregister exCfg none (runOps exCfg (allRegister 3 "t" "x" 1)) 0 "x" 1).1 "t").map (·.node) =
    [(exCfg 0).nodeID, (exCfg 1).nodeID] := by
  rw [(C38_wrong_one_refuted exCfg_distinct "t" "x" 1 (by decide) (by decide) 2 0).2.2.1]; rfl

end Braid.AddressBook
