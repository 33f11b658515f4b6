import Verif.PubSub.Spec

/-
Specification of what can keep a message from a channel (C40).
-/
namespace Braid.PubSub.Spec

/-- Message `m` was delivered on a channel other than `g`. -/
def Elsewhere (g : String) (m : Msg) (h : List Ev) : Prop := ∃ g', g' ≠ g ∧ DeliveredOn g' m h

/-- No subscriber on channel `g` crashed, the group of `g` was not removed and the stream was not deleted. Subscribers
of other channels can crash, and their groups can be removed. -/
def Steady (g : String) (h : List Ev) : Prop :=
  .dropped ∉ h ∧ .destroyed g ∉ h ∧ ∀ c, On c g h → .crash c ∉ h

end Braid.PubSub.Spec
