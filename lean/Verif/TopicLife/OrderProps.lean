import Verif.TopicLife.Order

/-
C104, what the subscribers of one channel receive over the whole life of a topic.
-/
namespace Braid.TopicLife
open Spec

/-- C104: what the subscribers of a channel receive, all together, comes in the order in which it was published, each message
at most once, even across the deletion and the new creation of the topic. -/
theorem C104_order {h : List Ev} {s : State} (hr : sys.Run h s) {h1 h2 : List Ev} {grp : String} {n n' : Nat} {e e' : String}
    {b b' : List UInt8} (hh : h = h1 ++ .got grp (.msg n e b) :: h2) (hm : .got grp (.msg n' e' b') ∈ h1) :
    Before h1 (.added (.msg n' e' b')) (.added (.msg n e b)) := by
  have i := oinv_run hr
  have hlt := i.gord h1 h2 grp n e b hh n' e' b' hm
  have ha : .added (.msg n e b) ∈ h1 := (got_added hr hh)
  obtain ⟨p, q, hpq⟩ := List.append_of_mem hm
  have ha' : .added (.msg n' e' b') ∈ h1 := by
    have := got_added hr (h1 := p) (h2 := q ++ .got grp (.msg n e b) :: h2) (grp := grp) (c := .msg n' e' b') (by rw [hh, hpq]; simp)
    rw [hpq]; exact List.mem_append_left _ this
  obtain ⟨u, v, huv⟩ := List.append_of_mem ha'
  have hin : .added (.msg n e b) ∈ v := by
    rw [huv] at ha
    rcases List.mem_append.1 ha with h3 | h3
    · exfalso
      have := i.ord u (v ++ .got grp (.msg n e b) :: h2) n' e' b' (by rw [hh, huv]; simp) n e b h3
      omega
    · rcases List.mem_cons.1 h3 with h3 | h3
      · simp only [Ev.added.injEq, Content.msg.injEq] at h3; omega
      · exact h3
  rw [huv]
  show List.Sublist _ _
  exact (List.Sublist.cons_cons _ (List.singleton_sublist.2 hin)).trans (List.sublist_append_right _ _)

/-- C104: no message is received twice on a channel. -/
theorem C104_once {h : List Ev} {s : State} (hr : sys.Run h s) (grp : String) (n : Nat) (e : String) (b : List UInt8) :
    h.count (.got grp (.msg n e b)) ≤ 1 := by
  apply Decidable.byContradiction
  intro hc
  obtain ⟨p, q, hpq⟩ := List.append_of_mem (List.count_pos_iff.1 (show 0 < h.count (.got grp (.msg n e b)) by omega))
  have hq : .got grp (.msg n e b) ∈ q ∨ .got grp (.msg n e b) ∈ p := by
    rw [hpq, List.count_append, List.count_cons_self] at hc
    by_cases h1 : 0 < List.count (.got grp (.msg n e b)) q
    · exact .inl (List.count_pos_iff.1 h1)
    · exact .inr (List.count_pos_iff.1 (by omega))
  have i := oinv_run hr
  rcases hq with hq | hq
  · obtain ⟨u, v, huv⟩ := List.append_of_mem hq
    have := i.gord (p ++ .got grp (.msg n e b) :: u) v grp n e b (by rw [hpq, huv]; simp) n e b (by simp)
    omega
  · have := i.gord p q grp n e b hpq n e b hq
    omega

/-- C104: a message that is still in the stream, was published after a channel was created and not received on it, will be: the subscribers
of the channel receive it if they read on, whatever those of other channels have read. -/
theorem C104_due {h : List Ev} {s : State} (hr : sys.Run h s) {h1 h2 : List Ev} {grp : String} (hh : h = h1 ++ .grouped grp :: h2)
    (hg : ∀ x ∈ h2, x ≠ .expired ∧ ∀ g l gs, x ≠ .erased g l gs) {t : Stream} (ht : s.stream = some t) {n : Nat} {e : String}
    {b : List UInt8} (ha : .added (.msg n e b) ∈ h2) (hin : .msg n e b ∈ t.entries.map (·.2)) (hn : .got grp (.msg n e b) ∉ h2) :
    ∃ k s' evs, sys.exec s (List.replicate k (.read grp)) = some (s', evs) ∧ .got grp (.msg n e b) ∈ evs := by
  have i := oinv_run hr
  obtain ⟨t', l, h3, h4, h5⟩ := i.due h1 h2 grp hh (fun x hx => by
    have := hg x hx
    intro hgone
    cases x <;> first | exact hgone.elim | exact this.1 rfl | exact this.2 _ _ _ rfl)
  rw [ht] at h3; cases h3
  obtain ⟨x, hx, hxc⟩ := List.mem_map.1 hin
  rcases h5 x hx (by rw [hxc]; simp) (by rw [hxc]; exact ha) with h6 | h6
  · rw [← hxc]
    exact reads t.entries.length s t l ht h4 (i.srt t ht) x hx h6 (List.countP_le_length ..)
  · rw [hxc] at h6; exact absurd h6 hn

/-- The hypotheses of `C104_order` and `C104_due` can be met: two channels, two messages; one channel has read both, the other is behind. -/
def twoActs : List Act :=
  [.start 0 .create, .go 0 .ok, .go 0 .ok, .go 0 .ok, .start 0 (.sub "a" false), .go 0 .ok, .start 0 (.sub "b" false), .go 0 .ok,
   .start 0 (.pub "e" [1]), .go 0 .ok, .start 0 (.pub "e" [2]), .go 0 .ok, .read "a", .read "a", .read "b"]

example : (sys.exec init twoActs).map (fun r => r.2.filter fun x => match x with | .got .. => true | _ => false) =
    some [.got "a" (.msg 2 "e" [1]), .got "a" (.msg 3 "e" [2]), .got "b" (.msg 2 "e" [1])] := by decide +kernel

example : (sys.exec init (twoActs ++ List.replicate 1 (.read "b"))).map (fun r => r.2.getLast?) = some (some (.got "b" (.msg 3 "e" [2]))) := by
  decide +kernel

end Braid.TopicLife
