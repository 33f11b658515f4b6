import Verif.Grpc.Inv

/-
Helper lemmas for C53: how many connections to an address are opened.
-/
namespace Braid.Grpc
open Braid Spec

variable {max : Nat}

/-- About to dial the address. -/
def isDial (a : String) (p : Pc) : Bool := decide (p = .wDial a)

/-- Has dialed the address, and not stored the connection yet. -/
def isStore (a : String) : Pc → Bool
  | .wStore a' _ => decide (a' = a)
  | _ => false

theorem countP_erase {p : Nat → Bool} {g : Nat} : ∀ {W : List Nat}, g ∈ W →
    (W.erase g).countP p + (if p g then 1 else 0) = W.countP p := by
  intro W h
  have := (List.perm_cons_erase h).countP_eq p
  rw [this, List.countP_cons]

structure InvB (k : Nat) (a : String) (h : List Ev) (s : State) (W : List Nat) : Prop where
  nodup : W.Nodup
  mem : ∀ g, g ∈ W ↔ (s.pc g).wait = some a
  new : s.connmap a = none → (openedTo a h).length = W.countP (fun g => isStore a (s.pc g))
  old : s.connmap a ≠ none → (openedTo a h).length + W.countP (fun g => isDial a (s.pc g)) ≤ k

theorem atMost_prefix {k : Nat} {a : String} {h e : List Ev} (hn : AtMost k a (h ++ e)) : AtMost k a h :=
  fun p q he => hn p (q ++ e) (by rw [he, List.append_assoc])

theorem countP_two {p q : Nat → Bool} (hd : ∀ g, p g = true → q g = false) : ∀ W : List Nat,
    W.countP p + W.countP q ≤ W.length := by
  intro W
  induction W with
  | nil => simp
  | cons w W ih =>
    have := hd w
    simp only [List.countP_cons, List.length_cons]
    cases h1 : p w <;> cases h2 : q w <;> simp_all <;> omega

/-- The goroutines in a `CallWait` for the address, after one goroutine has moved. -/
theorem exists_waiters {a : String} {s : State} {W : List Nat} (hd : W.Nodup)
    (hm : ∀ g, g ∈ W ↔ (s.pc g).wait = some a) (g : Nat) (x : Pc) : ∃ W' : List Nat, W'.Nodup ∧
      (∀ g', g' ∈ W' ↔ (upd s.pc g x g').wait = some a) ∧
      W'.countP (fun i => isStore a (upd s.pc g x i)) + (if isStore a (s.pc g) then 1 else 0) =
        W.countP (fun i => isStore a (s.pc i)) + (if isStore a x then 1 else 0) ∧
      W'.countP (fun i => isDial a (upd s.pc g x i)) + (if isDial a (s.pc g) then 1 else 0) =
        W.countP (fun i => isDial a (s.pc i)) + (if isDial a x then 1 else 0) := by
  have w1 : ∀ y : Pc, isStore a y = true → y.wait = some a := by
    intro y h; cases y <;> simp_all [isStore, Pc.wait]
  have w2 : ∀ y : Pc, isDial a y = true → y.wait = some a := by
    intro y h; cases y <;> simp_all [isDial, Pc.wait]
  -- first without `g`
  have e1 : ∀ p : Pc → Bool, (∀ y, p y = true → y.wait = some a) →
      (W.erase g).countP (fun i => p (upd s.pc g x i)) + (if p (s.pc g) then 1 else 0) =
        W.countP (fun i => p (s.pc i)) := by
    intro p hp
    have hc : (W.erase g).countP (fun i => p (upd s.pc g x i)) = (W.erase g).countP (fun i => p (s.pc i)) := by
      refine List.countP_congr fun i hi => ?_
      have : i ≠ g := fun h => (List.Nodup.not_mem_erase hd) (h ▸ hi)
      rw [upd_of_ne _ _ this]
    rw [hc]
    by_cases hg : g ∈ W
    · exact countP_erase (p := fun i => p (s.pc i)) hg
    · rw [List.erase_of_not_mem hg]
      have : p (s.pc g) ≠ true := fun h => hg ((hm g).2 (hp _ h))
      simp [this]
  have hme : ∀ g', g' ∈ W.erase g ↔ g' ≠ g ∧ (s.pc g').wait = some a := by
    intro g'; rw [hd.mem_erase_iff, hm]
  by_cases hx : x.wait = some a
  · refine ⟨g :: W.erase g, List.nodup_cons.2 ⟨hd.not_mem_erase, hd.erase g⟩, fun g' => ?_, ?_, ?_⟩
    · rw [List.mem_cons, hme]
      by_cases h : g' = g
      · subst h; simp [upd_same, hx]
      · simp [upd_of_ne _ _ h, h]
    · have := e1 (isStore a) w1
      rw [List.countP_cons, upd_same]
      omega
    · have := e1 (isDial a) w2
      rw [List.countP_cons, upd_same]
      omega
  · have n1 : isStore a x = false := by cases h : isStore a x; rfl; exact absurd (w1 x h) hx
    have n2 : isDial a x = false := by cases h : isDial a x; rfl; exact absurd (w2 x h) hx
    refine ⟨W.erase g, hd.erase g, fun g' => ?_, ?_, ?_⟩
    · rw [hme]
      by_cases h : g' = g
      · subst h; simp [upd_same, hx]
      · simp [upd_of_ne _ _ h, h]
    · have := e1 (isStore a) w1; simpa [n1] using this
    · have := e1 (isDial a) w2; simpa [n2] using this

theorem invB_run {k : Nat} {a : String} {h : List Ev} {s : State} (hr : (sys max).Run h s) :
    AtMost k a h → ∃ W, InvB k a h s W := by
  refine hr.invariant (P := fun h s => AtMost k a h → ∃ W, InvB k a h s W) ?_ ?_
  · intro _
    exact ⟨[], by simp, by simp [sys, init, Pc.wait], by simp [openedTo], by simp [sys, init]⟩
  intro h s x s' evs hr' hi hs hn
  have hw := wait_run hr'
  replace hs : step max s x = Option.some (s', evs) := hs
  obtain ⟨W, hd, hm, h1, h2⟩ := hi (atMost_prefix hn)
  -- the waiting goroutines are at most `k`
  have hk : W.length ≤ k := atMost_prefix hn h [] (by simp) W hd (fun g hg => hw g a ((hm g).1 hg))
  have htwo : W.countP (fun g => isStore a (s.pc g)) + W.countP (fun g => isDial a (s.pc g)) ≤ W.length := by
    refine countP_two (fun g hg => ?_) W
    cases hp : s.pc g <;> simp_all [isStore, isDial]
  have close : ∀ (s' : State) (evs : List Ev) (g : Nat) (x : Pc), s'.pc = upd s.pc g x → (∀ cS cD,
      cS + (if isStore a (s.pc g) then 1 else 0) =
        W.countP (fun i => isStore a (s.pc i)) + (if isStore a x then 1 else 0) →
      cD + (if isDial a (s.pc g) then 1 else 0) =
        W.countP (fun i => isDial a (s.pc i)) + (if isDial a x then 1 else 0) →
      (s'.connmap a = none → (openedTo a (h ++ evs)).length = cS) ∧
      (s'.connmap a ≠ none → (openedTo a (h ++ evs)).length + cD ≤ k)) → ∃ W', InvB k a (h ++ evs) s' W' := by
    intro s' evs g x hp hc
    obtain ⟨W', g1, g2, g3, g4⟩ := exists_waiters hd hm g x
    obtain ⟨c1, c2⟩ := hc _ _ g3 g4
    exact ⟨W', g1, by rw [hp]; exact g2, by rw [hp]; exact c1, by rw [hp]; exact c2⟩
  generalize hS : W.countP (fun g => isStore a (s.pc g)) = S at *
  generalize hD : W.countP (fun g => isDial a (s.pc g)) = D at *
  clear hS hD hi hr' hw hm hd
  cases x <;> gr_cases hs
  all_goals refine close _ _ _ _ rfl (fun cS cD e1 e2 => ?_)
  all_goals simp only [openedTo_append, openedTo_cons, openedTo_nil, openStep, List.append_nil, List.length_append,
    upd_apply]
  all_goals clear close hn hr
  all_goals simp only [*, isStore, isDial] at e1 e2
  all_goals grind

end Braid.Grpc
