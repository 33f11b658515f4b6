import Verif.AddressBook.Refine

/-! Lemma for C34: the local map of a node is changed only by that node. -/

namespace Braid.AddressBook

open Spec

variable {cfg : Nat → NodeCfg}

/-- The local map of a node that takes no further part is left as it is. -/
theorem idmap_others (n : Nat) (post : List Op) (W : World)
    (h : ∀ op ∈ post, opNode op ≠ n ∨ op = .clear n) :
    (post.foldl (apply cfg) W).idmap n = W.idmap n := by
  induction post generalizing W with
  | nil => rfl
  | cons op post ih =>
    rw [List.foldl_cons, ih _ fun o ho => h o (List.mem_cons_of_mem _ ho)]
    have := h op List.mem_cons_self
    cases op with
    | clear m => rfl
    | register m ty id w =>
      have hm : m ≠ n := by simpa [opNode] using this
      simp only [apply, register]
      repeat' split
      all_goals first | rfl | (funext k; simp [hm.symm])
    | unregister m id w =>
      have hm : m ≠ n := by simpa [opNode] using this
      simp only [apply, unregister]
      repeat' split
      all_goals first | rfl | (funext k; simp [hm.symm])

end Braid.AddressBook
