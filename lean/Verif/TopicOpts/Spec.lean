import Verif.TopicOpts.Model

/-
What topic options should do (C69).
-/
namespace Braid.TopicOpts

/-- The options give the time to live `d`: the last one that gives any. -/
def GivesTtl (opts : List TOpt) (d : Int) : Prop :=
  ∃ a b, opts = a ++ .ttl d :: b ∧ ∀ d', TOpt.ttl d' ∉ b

/-- Nothing fails. -/
def good : Out := ⟨true, true, true, true⟩

/-- The topic `t` is new, in this process and in Redis. -/
def Fresh (s : State) (t : String) : Prop := t ∉ s.topicMap ∧ s.stream t = false

/-- **C69**: a first subscription with a time to live of `n` seconds makes the topic expire in `n` seconds. -/
def SubSetsTtl : Prop :=
  ∀ h s t opts n s' evs, sys.Run h s → Fresh s t → GivesTtl opts (n * 1000000000) → 0 < n →
    sys.step s (.sub t opts good true) = some (s', evs) → s'.expiry t = some (s.now + n)

/-- Only actors' subscriptions, no direct `CreateTopic`. -/
def OnlySubs (h : List Ev) : Prop := ∀ t opts, Ev.create t opts ∉ h

end Braid.TopicOpts
