import Verif.Grpc.Spec

namespace Braid.Grpc
open Spec
variable {max : Nat}

macro "gr_cases" h:ident : tactic => `(tactic| (
  simp only [step] at $h:ident
  repeat' (split at $h:ident)
  all_goals (try (cases $h:ident))))

/-- The goroutine holds a slot. -/
def Pc.holds : Pc → Bool
  | .cConn _ _ => true
  | .cOpts _ _ _ => true
  | .cInvoke _ _ => true
  | .cFree _ => true
  | _ => false

/-- The phase that belongs to a position. -/
def Pc.phase : Pc → Phase
  | .idle => .out
  | .cSlot _ _ => .waiting
  | .cConn _ _ => .holding
  | .cOpts _ _ _ => .holding
  | .cInvoke _ _ => .holding
  | .cFree _ => .holding
  | .wConn _ => .inWait
  | .wDial _ => .inWait
  | .wStore _ _ => .inWait
  | .wInvoke _ _ => .inWait

/-- The results with which a `Call` may be about to end. -/
def Pc.good : Pc → Prop
  | .cFree r => r ≠ .noSlot
  | _ => True

theorem holders_append (h k : List Ev) : holders (h ++ k) = k.foldl holdStep (holders h) := by
  simp [holders, List.foldl_append]

theorem phase_append (g : Nat) (h k : List Ev) :
    phase g (h ++ k) = k.foldl (fun p e => p.bind (allowed g · e)) (phase g h) := by
  simp [phase, List.foldl_append]

structure InvS (max : Nat) (h : List Ev) (s : State) : Prop where
  len : (holders h).length = s.workers
  nodup : (holders h).Nodup
  mem : ∀ g, g ∈ holders h ↔ (s.pc g).holds = true
  cap : s.workers ≤ max
  good : ∀ g, (s.pc g).good

theorem invS_run {h : List Ev} {s : State} (hr : (sys max).Run h s) : InvS max h s := by
  refine hr.invariant (P := InvS max) ⟨rfl, by simp [holders], by simp [holders, sys, init, Pc.holds], by simp [sys, init], by simp [sys, init, Pc.good]⟩ ?_
  intro h s a s' evs _ hi hs
  replace hs : step max s a = some (s', evs) := hs
  obtain ⟨h1, h2, h3, h4, h5⟩ := hi
  have h6 : ∀ g, ((holders h).erase g).length = if g ∈ holders h then (holders h).length - 1 else (holders h).length :=
    fun g => List.length_erase
  have h7 : ∀ g g', g' ∈ (holders h).erase g ↔ g' ≠ g ∧ g' ∈ holders h := fun g g' => h2.mem_erase_iff
  have h8 : ∀ g, ((holders h).erase g).Nodup := fun g => h2.erase g
  cases a <;> gr_cases hs <;> constructor
  all_goals (try simp only [holders_append, List.foldl_cons, List.foldl_nil, upd_apply, holdStep])
  all_goals grind [Pc.holds, Pc.good]

theorem phase_run {h : List Ev} {s : State} (hr : (sys max).Run h s) : ∀ g, phase g h = some (s.pc g).phase := by
  refine hr.invariant (P := fun h s => ∀ g, phase g h = some (s.pc g).phase) (by simp [phase, sys, init, Pc.phase]) ?_
  intro h s a s' evs hr' hi hs g
  replace hs : step max s a = some (s', evs) := hs
  have hg := (invS_run hr').good
  have h0 := hi g
  cases a with
  | start g' o =>
    gr_cases hs
    all_goals
      by_cases hc : g' = g
      · subst hc; simp_all [phase_append, allowed, Pc.phase]
      · simp [phase_append, h0, allowed, hc, upd_of_ne _ _ (Ne.symm hc)]
  | ctx g' =>
    gr_cases hs
    all_goals
      by_cases hc : g' = g
      · subst hc; simp_all [phase_append, allowed, Pc.phase]
      · simp [phase_append, h0, allowed, hc, upd_of_ne _ _ (Ne.symm hc)]
  | go g' ok =>
    have hg := hg g'
    gr_cases hs
    all_goals
      by_cases hc : g' = g
      · subst hc; rename_i hp; first | (simp_all [phase_append, allowed, Pc.phase, Pc.good]; done) | (cases ok <;> simp_all [phase_append, allowed, Pc.phase, Pc.good])
      · simp [phase_append, h0, allowed, hc, upd_of_ne _ _ (Ne.symm hc)]

/-- Connections are only used for the address they were opened to. -/
structure InvC (h : List Ev) (s : State) : Prop where
  map : ∀ a c, s.connmap a = some c → c ∈ openedTo a h
  cOpts : ∀ g a c b, s.pc g = .cOpts a c b → c ∈ openedTo a h ∧ s.connmap a ≠ none
  cInvoke : ∀ g a c, s.pc g = .cInvoke a c → c ∈ openedTo a h ∧ s.connmap a ≠ none
  wStore : ∀ g a c, s.pc g = .wStore a c → c ∈ openedTo a h
  wInvoke : ∀ g a c, s.pc g = .wInvoke a c → c ∈ openedTo a h ∧ s.connmap a ≠ none
  sent : ∀ g a c b, .sent g a c b ∈ h → c ∈ openedTo a h ∧ s.connmap a ≠ none
  lt : ∀ a c, c ∈ openedTo a h → c < s.conns

theorem openedTo_append (a : String) (h k : List Ev) : openedTo a (h ++ k) = openedTo a h ++ openedTo a k :=
  List.filterMap_append

def openStep (a : String) : Ev → List Nat
  | .opened _ a' c => if a' = a then [c] else []
  | _ => []

theorem openedTo_nil (a : String) : openedTo a [] = [] := rfl

theorem openedTo_cons (a : String) (e : Ev) (k : List Ev) : openedTo a (e :: k) = openStep a e ++ openedTo a k := by
  unfold openedTo
  rw [List.filterMap_cons]
  cases e <;> simp only [openStep, List.nil_append]
  split <;> rename_i h <;> split at h <;> simp_all

theorem invC_run {h : List Ev} {s : State} (hr : (sys max).Run h s) : InvC h s := by
  refine hr.invariant (P := InvC) ⟨by simp [sys, init], by simp [sys, init], by simp [sys, init], by simp [sys, init],
    by simp [sys, init], by simp, by simp [openedTo]⟩ ?_
  intro h s a s' evs _ hi hs
  replace hs : step max s a = some (s', evs) := hs
  obtain ⟨h1, h2, h3, h4, h5, h6, h7⟩ := hi
  cases a <;> gr_cases hs
  all_goals constructor
  all_goals (try simp only [upd_apply, openedTo_append, openedTo_cons, openedTo_nil, openStep, List.append_nil])
  all_goals grind

/-- The address of a `CallWait`. -/
def Pc.wait : Pc → Option String
  | .wConn a => some a
  | .wDial a => some a
  | .wStore a _ => some a
  | .wInvoke a _ => some a
  | _ => none

theorem inWait_append {g : Nat} {a : String} {h k : List Ev} (h1 : InWait g a h) (hk : ∀ r, .finish g r ∉ k) :
    InWait g a (h ++ k) := by
  obtain ⟨p, q, rfl, hq⟩ := h1
  exact ⟨p, q ++ k, by simp, fun r hr => (List.mem_append.1 hr).elim (hq r) (hk r)⟩

theorem inWait_new {g : Nat} {a : String} {h : List Ev} : InWait g a (h ++ [.begin g (.callWait a)]) :=
  ⟨h, [], rfl, by simp⟩

/-- A goroutine on its way in a `CallWait` is seen to be so. -/
theorem wait_run {h : List Ev} {s : State} (hr : (sys max).Run h s) :
    ∀ g a, (s.pc g).wait = some a → InWait g a h := by
  refine hr.invariant (P := fun h s => ∀ g a, (s.pc g).wait = some a → InWait g a h) (by simp [sys, init, Pc.wait]) ?_
  intro h s a s' evs hr' hi hs g a' hw
  replace hs : step max s a = some (s', evs) := hs
  have app := fun k => @inWait_append g a' h k
  have new := @inWait_new g a' h
  have h0 := hi g a'
  cases a <;> gr_cases hs
  all_goals simp only [upd_apply] at hw
  all_goals
    split at hw
    · first
      | (cases hw; done)
      | (subst_vars; refine app _ (h0 ?_) (by simp); grind [Pc.wait])
      | (subst_vars; simp only [Pc.wait, Option.some.injEq] at hw; subst hw; exact new)
    · refine app _ (h0 hw) ?_
      simp
      try assumption

theorem noOverlap_prefix {a : String} {h k : List Ev} (hn : NoOverlap a (h ++ k)) : NoOverlap a h :=
  fun pre g post he => hn pre g (post ++ k) (by rw [he]; simp)

/-- Without overlap one goroutine at a time is in a `CallWait` for the address. -/
theorem one_wait {a : String} {h : List Ev} {s : State} (hr : (sys max).Run h s) : NoOverlap a h →
    ∀ g g', (s.pc g).wait = some a → (s.pc g').wait = some a → g = g' := by
  refine hr.invariant (P := fun h s => NoOverlap a h → ∀ g g', (s.pc g).wait = some a → (s.pc g').wait = some a → g = g')
    (by simp [sys, init, Pc.wait]) ?_
  intro h s x s' evs hr' hi hs hn g g' h1 h2
  replace hs : step max s x = some (s', evs) := hs
  have hi := hi (noOverlap_prefix hn)
  have hw := wait_run hr'
  have hb : ∀ g0, evs = [.begin g0 (.callWait a)] → ∀ g', (s.pc g').wait ≠ some a := by
    intro g0 he g' hw'
    exact hn h g0 [] (by rw [he]) g' (hw g' a hw')
  have h0 := hi g g'
  cases x <;> gr_cases hs
  all_goals simp only [upd_apply] at h1 h2
  all_goals first
    | (have hb' := hb _ rfl; grind [Pc.wait])
    | grind [Pc.wait]

structure InvO (a : String) (h : List Ev) (s : State) : Prop where
  none : s.connmap a = none → openedTo a h = [] ∨ ∃ g c, s.pc g = .wStore a c ∧ openedTo a h = [c]
  some : ∀ c, s.connmap a = some c → openedTo a h = [c]
  dial : ∀ g, s.pc g = .wDial a → s.connmap a = .none ∧ openedTo a h = []
  store : ∀ g c, s.pc g = .wStore a c → openedTo a h = [c]

theorem invO_run {a : String} {h : List Ev} {s : State} (hr : (sys max).Run h s) : NoOverlap a h → InvO a h s := by
  refine hr.invariant (P := fun h s => NoOverlap a h → InvO a h s) ?_ ?_
  · intro _; exact ⟨by simp [openedTo], by simp [sys, init], by simp [sys, init], by simp [sys, init]⟩
  intro h s x s' evs hr' hi hs hn
  have hr'' := hr'.step hs
  replace hs : step max s x = Option.some (s', evs) := hs
  have hi := hi (noOverlap_prefix hn)
  have hone := one_wait hr' (noOverlap_prefix hn)
  have w1 : ∀ g, s.pc g = .wDial a → (s.pc g).wait = Option.some a := fun g h => by rw [h]; rfl
  have w2 : ∀ g c, s.pc g = .wStore a c → (s.pc g).wait = Option.some a := fun g c h => by rw [h]; rfl
  have w3 : ∀ g, s.pc g = .wConn a → (s.pc g).wait = Option.some a := fun g h => by rw [h]; rfl
  obtain ⟨h1, h2, h3, h4⟩ := hi
  cases x <;> gr_cases hs
  all_goals constructor
  all_goals (try simp only [upd_apply, openedTo_append, openedTo_cons, openedTo_nil, openStep, List.append_nil])
  all_goals grind

/-- Connections are opened by `CallWait`s. -/
theorem opened_by {h : List Ev} {s : State} (hr : (sys max).Run h s) {g : Nat} {a : String} {c : Nat} :
    .opened g a c ∈ h → .begin g (.callWait a) ∈ h := by
  have begun : ∀ {h s}, (sys max).Run h s → ∀ g a, (s.pc g).wait = some a → .begin g (.callWait a) ∈ h := by
    intro h s hr g a hw
    obtain ⟨p, q, rfl, -⟩ := wait_run hr g a hw
    simp
  refine hr.invariant (P := fun h _ => .opened g a c ∈ h → .begin g (.callWait a) ∈ h) (by simp) ?_
  intro h s x s' evs hr' hi hs ho
  replace hs : step max s x = some (s', evs) := hs
  have hb := begun hr'
  rcases List.mem_append.1 ho with ho | ho
  · exact List.mem_append_left _ (hi ho)
  · refine List.mem_append_left _ (hb g a ?_)
    cases x <;> gr_cases hs <;> simp at ho
    obtain ⟨rfl, rfl, -⟩ := ho
    simp [*, Pc.wait]

/-- No connection was opened to two addresses. -/
theorem opened_inj {h : List Ev} {s : State} (hr : (sys max).Run h s) {a a' : String} {c : Nat} :
    c ∈ openedTo a h → c ∈ openedTo a' h → a = a' := by
  refine hr.invariant (P := fun h _ => c ∈ openedTo a h → c ∈ openedTo a' h → a = a') (by simp [openedTo]) ?_
  intro h s x s' evs hr' hi hs
  replace hs : step max s x = some (s', evs) := hs
  have h7 := (invC_run hr').lt
  cases x <;> gr_cases hs
  all_goals simp only [openedTo_append, openedTo_cons, openedTo_nil, openStep, List.append_nil]
  all_goals grind

/-- A decidable form of `NoOverlap`: the goroutines that are in a `CallWait` for `a`. -/
def overlapCheck (a : String) : List Ev → List Nat → Bool
  | [], _ => true
  | .begin g o :: h, l =>
    if o = .callWait a then l.isEmpty && overlapCheck a h (g :: l) else overlapCheck a h l
  | .finish g _ :: h, l => overlapCheck a h (l.filter (· ≠ g))
  | _ :: h, l => overlapCheck a h l

theorem noOverlap_of_check {a : String} {h : List Ev} (hc : overlapCheck a h [] = true) : NoOverlap a h := by
  have key : ∀ (pre : List Ev) (l : List Nat) (g : Nat) (post : List Ev),
      overlapCheck a (pre ++ .begin g (.callWait a) :: post) l = true →
      (∀ g', ¬ InWait g' a pre) ∧ ∀ g' ∈ l, ∃ r, .finish g' r ∈ pre := by
    intro pre
    induction pre with
    | nil =>
      intro l g post h
      simp only [List.nil_append, overlapCheck, if_true, Bool.and_eq_true, List.isEmpty_iff] at h
      refine ⟨?_, by simp [h.1]⟩
      rintro g' ⟨p, q, he, -⟩
      simp at he
    | cons e pre ih =>
      intro l g post h
      have lift : (∀ g', ¬ InWait g' a pre) → (∀ g', e = .begin g' (.callWait a) → ∃ r, .finish g' r ∈ pre) →
          ∀ g', ¬ InWait g' a (e :: pre) := by
        rintro h1 h2 g' ⟨p, q, he, hq⟩
        cases p with
        | nil =>
          simp only [List.nil_append, List.cons.injEq] at he
          obtain ⟨rfl, rfl⟩ := he
          obtain ⟨r, hr⟩ := h2 g' rfl
          exact hq r hr
        | cons x p =>
          simp only [List.cons_append, List.cons.injEq] at he
          obtain ⟨rfl, rfl⟩ := he
          exact h1 g' ⟨p, q, rfl, hq⟩
      cases e with
      | begin g0 o =>
        simp only [List.cons_append, overlapCheck] at h
        split at h
        · rename_i ho
          simp only [Bool.and_eq_true, List.isEmpty_iff] at h
          obtain ⟨hl, h⟩ := h
          obtain ⟨h1, h2⟩ := ih _ _ _ h
          refine ⟨lift h1 ?_, by simp [hl]⟩
          intro g' he; cases he; exact h2 g0 (by simp)
        · rename_i ho
          obtain ⟨h1, h2⟩ := ih _ _ _ h
          refine ⟨lift h1 ?_, fun g' hg' => ?_⟩
          · intro g' he; cases he; exact absurd rfl ho
          · obtain ⟨r, hr⟩ := h2 g' hg'; exact ⟨r, List.mem_cons_of_mem _ hr⟩
      | finish g0 r0 =>
        simp only [List.cons_append, overlapCheck] at h
        obtain ⟨h1, h2⟩ := ih _ _ _ h
        refine ⟨lift h1 (by simp), fun g' hg' => ?_⟩
        by_cases hg : g' = g0
        · subst hg; exact ⟨r0, by simp⟩
        · obtain ⟨r, hr⟩ := h2 g' (by simp [hg', hg]); exact ⟨r, List.mem_cons_of_mem _ hr⟩
      | _ =>
        simp only [List.cons_append, overlapCheck] at h
        obtain ⟨h1, h2⟩ := ih _ _ _ h
        refine ⟨lift h1 (by simp), fun g' hg' => ?_⟩
        obtain ⟨r, hr⟩ := h2 g' hg'; exact ⟨r, List.mem_cons_of_mem _ hr⟩
  intro pre g post he
  exact (key pre [] g post (he ▸ hc)).1

end Braid.Grpc
