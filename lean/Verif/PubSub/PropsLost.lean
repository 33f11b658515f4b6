import Verif.PubSub.Lost
import Verif.PubSub.Props

/-
C40, what can keep a message from a channel.
-/
namespace Braid.PubSub
open Spec

/-- C40, any number of channels: as long as no subscriber of channel `g` crashes, the group of `g` is not removed and
the stream is not deleted (other channels can come and go, and their subscribers can crash), then from any state that
can be reached the subscribers can only move messages a bounded number of times, and once none can be moved, every
message the channel has a right to was delivered on it or on another channel. So a message can be lost for a channel
only because it was delivered on another one first. Missing: that it is delivered on `g` in the latter case; see
`C40_other_channel_refuted`. -/
theorem C40_somewhere_partial {g : String} (hg : g ≠ "") {h : List Ev} {s : State} (hr : sys.Run h s)
    (hq : Steady g h) {m : Msg} (hd : Due g m h) :
    ∃ N, ∀ n s' k, Moves s n s' k → n ≤ N ∧ (Stuck s' → DeliveredOn g m (h ++ k) ∨ Elsewhere g m (h ++ k)) := by
  obtain ⟨b, hb⟩ := bounded_on hr
  refine ⟨_, fun n s' k hm => ⟨moves_bound hr hb hm, fun hstuck => ?_⟩⟩
  have hr' := moves_run hr hm
  obtain ⟨hq', hd'⟩ : Steady g (h ++ k) ∧ Due g m (h ++ k) := by
    have hk := moves_events hm
    have hn : ∀ e ∈ k, ∃ c m, e = Ev.deliver c m := hk
    refine ⟨⟨?_, ?_, ?_⟩, ?_⟩
    · intro he
      rcases List.mem_append.1 he with he | he
      · exact hq.1 he
      · obtain ⟨c, m, h'⟩ := hk _ he; cases h'
    · intro he
      rcases List.mem_append.1 he with he | he
      · exact hq.2.1 he
      · obtain ⟨c, m, h'⟩ := hk _ he; cases h'
    · intro c hc he
      have hc' : On c g h := by
        rcases List.mem_append.1 hc with hc | hc
        · exact hc
        · obtain ⟨c, m, h'⟩ := hk _ hc; cases h'
      rcases List.mem_append.1 he with he | he
      · exact hq.2.2 c hc' he
      · obtain ⟨c, m, h'⟩ := hk _ he; cases h'
    · rcases hd with ⟨pre, post, b, rfl, hb⟩ | ⟨h1, h2⟩
      · exact .inl ⟨pre, post ++ k, b, by simp, hb⟩
      · exact .inr ⟨List.mem_append_left _ h1, List.mem_append_left _ h2⟩
  have hR := invL_run hg hr' hq'
  have hrest : ∀ c, (s'.subs c).group = g → AtRest s' c := fun c hc => stuck_rest hstuck (hR.alive c hc).1
  rcases hR.kept m hd' with h | h | ⟨c, e, hc, he, -⟩ | ⟨e, he, -, hle⟩
  · exact .inl h
  · exact .inr h
  · exfalso
    obtain ⟨h1, h2, -⟩ := hrest c hc
    rw [h1, h2] at he
    rcases he with he | he <;> cases he
  · exfalso
    have hgr : ∃ b, Ev.group g b ∈ h ++ k := by
      rcases hd' with ⟨pre, post, b, heq, hb⟩ | ⟨-, hb⟩
      · exact ⟨b, by rw [heq]; exact List.mem_append_left _ hb⟩
      · exact ⟨true, hb⟩
    obtain ⟨b, hb⟩ := hgr
    obtain ⟨c, hc⟩ := some_sub hg hr' b hb
    cases hl : s'.groups g with
    | none => exact (hR.fresh hl).1 b hb
    | some l =>
      have h1 := hle l hl
      have h2 := (hrest c hc).2.2 l (by rw [hc]; exact hl) e he
      omega

/-- The example: channels "a", "b" and "c", the subscriber of "c" crashes, and the message is delivered on "a" and
deleted before the subscriber of "b" reads. -/
example : ∃ h s, sys.Run h s ∧ Steady "b" h ∧ Due "b" ⟨0, "e", [1]⟩ h ∧ ¬ DeliveredOn "b" ⟨0, "e", [1]⟩ h ∧
    Elsewhere "b" ⟨0, "e", [1]⟩ h ∧ (∃ c, .crash c ∈ h) := by
  refine ⟨_, _, Lts.run_of_exec (M := sys) (as := [.sub 0 "a" false, .sub 1 "b" false, .sub 2 "c" false,
    .pub "e" [1] 0, .read 2, .crash 2, .read 0, .put 0, .handle 0, .del 0 true]) rfl, ⟨by decide, by decide, ?_⟩,
    .inl ⟨[.group "a" false, .sub 0 "a", .group "b" false, .sub 1 "b", .group "c" false, .sub 2 "c"],
      [.crash 2, .deliver 0 ⟨0, "e", [1]⟩], false, rfl, by decide⟩, ?_, ⟨"a", by decide, 0, ?_, by decide⟩,
    ⟨2, by decide⟩⟩
  · intro c hc hx
    simp [On] at hc hx; omega
  · rintro ⟨c, hc, hm⟩
    simp [On] at hc hm; omega
  · unfold On; decide

end Braid.PubSub
