import Verif.System.Props

/-
Property C23: exactly which ids can be relied on.
-/
namespace Braid.System
open AddressBook Spec

/-- C23, exactly which ids can be relied on: an actor that is on the node is reached by its id, in every cluster and for every type
given and every choice made on the way, iff the id is not one of the symbols `?` and `~`. -/
theorem C23_ids_exact (target : String) (hne : target ≠ "") :
    (∀ (C : Cluster) (W : World) (n : Nat) (ty ty' : String) (o : Oracle), Hosts C n target ty' → o.Valid C W n ty →
      (route C W n target ty o).outcome n = some (.delivered n target)) ↔ Plain target := by
  constructor
  · intro h
    refine ⟨?_, ?_⟩
    · rintro rfl
      have := h ⟨exCfg, fun _ => ⟨[("?", "t")], fun _ => none⟩, fun _ _ => none⟩ (runOps exCfg [.register 0 "t" "?" 1]) 0 "u" "t"
        ⟨[], [("?", "t")]⟩ (by simp [Hosts]) ⟨⟨by simp, by simp, by decide +kernel⟩, List.Perm.refl _⟩
      simp [route, wildcard, Cluster.has, Addr.zero, Decision.outcome] at this
    · rintro rfl
      have := h ⟨exCfg, fun _ => ⟨[("~", "t")], fun _ => none⟩, fun _ _ => none⟩ (runOps exCfg [.register 0 "t" "~" 1]) 0 "u" "t"
        ⟨[], [("~", "t")]⟩ (by simp [Hosts]) ⟨⟨by simp, by simp, by decide +kernel⟩, List.Perm.refl _⟩
      simp [route, wildcard, Decision.outcome] at this
  · intro hp C W n ty ty' o hh _
    exact (C23_local_id_partial C n target ty ty' hp hne hh W o).1

/-- `*` and `#` are ids like others. -/
example : Plain "*" ∧ Plain "#" ∧ ¬ Plain "~" := by unfold Plain; decide

end Braid.System
