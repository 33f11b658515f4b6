import Verif.PubSub.Often
import Verif.PubSub.Props

/-
C39, whatever happens to the group of a channel: how often a message can be delivered.
-/
namespace Braid.PubSub
open Spec

/-- C39, "nothing is delivered that was not published", in all runs. -/
theorem C39_published {h : List Ev} {s : State} (hr : sys.Run h s) {c : Nat} {m : Msg} (hm : m ∈ deliveredTo c h) :
    m ∈ pubs h :=
  (invU_run hr).pub c m (List.mem_append_left _ hm)

/-- C39, "at most one subscriber, at most once", in all runs: on a channel a message is delivered once if the channel
existed when it was published, and once more for every time the group of the channel is created from the beginning of the
stream afterwards; not more. -/
theorem C39_times {h1 h2 : List Ev} {s : State} {m : Msg} (hr : sys.Run (h1 ++ .pub m :: h2) s) (g : String) :
    timesOn g m (h1 ++ .pub m :: h2) ≤
      (if .group g true ∈ h1 ∨ .group g false ∈ h1 then 1 else 0) + h2.count (.group g true) := by
  have hb := tot_run hr g m h1 h2 rfl
  have ht : timesOn g m (h1 ++ .pub m :: h2) ≤ tot (h1 ++ .pub m :: h2) s g m := by
    unfold timesOn tot
    induction members g (h1 ++ .pub m :: h2) with
    | nil => simp
    | cons c L ih =>
      simp only [List.map_cons, List.sum_cons]
      have : (deliveredTo c (h1 ++ .pub m :: h2)).count m ≤ (flow (h1 ++ .pub m :: h2) s c).count m := by
        unfold flow
        rw [List.count_append]
        omega
      omega
  omega

/-- The message of the witnesses below. -/
def again : Msg := ⟨0, "e", []⟩

/-- Subscriber `k` opens the channel from the beginning, receives what is there, and closes the channel before the message
is deleted. -/
def reopen (k : Nat) : List Act :=
  [.sub k "a" true, .read k, .put k, .handle k, .close k, .close k, .close k]

theorem reopen_exec {s : State} {k : Nat} (he : s.entries = [⟨1, again⟩]) (hg : s.groups "a" = none)
    (hc : s.consumers "a" = []) (hk : s.subs k = noSub) :
    ∃ s', sys.exec s (reopen k) = some (s', [.group "a" true, .sub k "a", .deliver k again, .destroyed "a"]) ∧
      s'.entries = [⟨1, again⟩] ∧ s'.groups "a" = none ∧ s'.consumers "a" = [] ∧
      ∀ c, c ≠ k → s'.subs c = s.subs c := by
  refine ⟨_, by simp [reopen, Lts.exec, sys, step, he, hg, hc, hk, noSub, unread, advance]; rfl, ?_, ?_, ?_, ?_⟩
  · simp [he]
  · simp
  · simp
  · intro c hck
    simp [upd_of_ne _ _ hck]

/-- C39 is violated without bound, and `C39_times` is tight: for every `n`, `n` subscribers of one channel can all receive the
same message, with `n` creations of the group. -/
theorem C39_unbounded_refuted (n : Nat) : ∃ h2 s, sys.Run (.pub again :: h2) s ∧ h2.count (.group "a" true) = n ∧
    ∀ c, c < n → On c "a" (.pub again :: h2) ∧ again ∈ deliveredTo c (.pub again :: h2) := by
  have key : ∃ h2 s, sys.Run (.pub again :: h2) s ∧ (s.entries = [⟨1, again⟩] ∧ s.groups "a" = none ∧
      s.consumers "a" = [] ∧ ∀ c, n ≤ c → s.subs c = noSub) ∧ h2.count (.group "a" true) = n ∧
      ∀ c, c < n → .sub c "a" ∈ h2 ∧ .deliver c again ∈ h2 := by
    induction n with
    | zero =>
      exact ⟨[], _, Lts.run_of_exec (M := sys) (as := [.pub "e" [] 0]) rfl, ⟨rfl, rfl, rfl, fun _ _ => rfl⟩, rfl,
        by simp⟩
    | succ n ih =>
      obtain ⟨h2, s, hr, ⟨i1, i2, i3, i4⟩, i5, i6⟩ := ih
      obtain ⟨s', he, j1, j2, j3, j4⟩ := reopen_exec i1 i2 i3 (i4 n (Nat.le_refl n))
      refine ⟨h2 ++ [.group "a" true, .sub n "a", .deliver n again, .destroyed "a"], s', by simpa using hr.exec he,
        ⟨j1, j2, j3, ?_⟩, ?_, ?_⟩
      · intro c hc
        rw [j4 c (by omega)]
        exact i4 c (by omega)
      · rw [List.count_append, i5]
        simp
      · intro c hc
        by_cases hcn : c = n
        · subst hcn
          simp
        · have := i6 c (by omega)
          simp [this]
  obtain ⟨h2, s, hr, -, h3, h4⟩ := key
  refine ⟨h2, s, hr, h3, fun c hc => ⟨List.mem_cons_of_mem _ (h4 c hc).1, ?_⟩⟩
  simp only [deliveredTo, List.mem_filterMap]
  exact ⟨_, List.mem_cons_of_mem _ (h4 c hc).2, by simp⟩

/-- C39, the order of one subscriber, fails too: the loop of a closed channel goes on, and when somebody opens the channel
again from the beginning it receives messages whose deletion failed a second time, after newer ones. -/
theorem C39_order_refuted : ∃ h s, sys.Run h s ∧ deliveredTo 0 h = [⟨0, "e", []⟩, ⟨1, "f", []⟩, ⟨0, "e", []⟩] :=
  ⟨_, _, Lts.run_of_exec (M := sys) (as := [.sub 0 "a" false, .pub "e" [] 0, .pub "f" [] 0, .read 0, .put 0, .put 0,
    .handle 0, .del 0 false, .handle 0, .close 0, .close 0, .close 0, .sub 1 "a" true, .read 0, .put 0, .del 0 false,
    .handle 0]) rfl, rfl⟩

/-- A message that is published between two creations of the group from the beginning, and delivered twice. -/
example : ∃ s, sys.Run ([.group "a" true, .sub 0 "a"] ++ .pub again :: [.deliver 0 again, .destroyed "a",
    .group "a" true, .sub 1 "a", .deliver 1 again]) s :=
  ⟨_, Lts.run_of_exec (M := sys) (as := [.sub 0 "a" true, .pub "e" [] 0, .read 0, .put 0, .handle 0, .close 0, .close 0,
    .close 0, .sub 1 "a" true, .read 1, .put 1, .handle 1]) rfl⟩

end Braid.PubSub
