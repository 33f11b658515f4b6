import Verif.Reporter.Spec

/-
Invariants of the span reporter.
-/
namespace Braid.Reporter
open Spec

variable {f : Nat → Bool}

def itemSpan : Item → Option Nat
  | .span x => some x
  | .close _ => none

def itemClose : Item → Option Nat
  | .close g => some g
  | .span _ => none

/-- The spans that are in the queue or in the hands of the worker. -/
def held (s : State) : List Nat :=
  (match s.worker with | .span x => [x] | _ => []) ++ s.queue.filterMap itemSpan

/-- The invariant of the spans. -/
structure InvA (f : Nat → Bool) (h : List Ev) (s : State) : Prop where
  alive : s.dead = false
  nopanic : .panic ∉ h
  acc : queued h = handled h ++ held s
  drop : s.dropped = (dropped h).length
  deliv : delivered h = (handled h).filter f
  len : s.queue.length ≤ queueSize

macro "rp_cases" h:ident : tactic => `(tactic| (
  simp only [step] at $h:ident
  repeat' split at $h:ident
  all_goals try cases $h:ident))

theorem invA_run {h : List Ev} {s : State} (hr : (sys (some f)).Run h s) : InvA f h s := by
  refine Lts.Run.invariant (P := fun h s => InvA f h s) ?_ ?_ hr
  · exact ⟨rfl, by simp, rfl, rfl, rfl, by simp [sys, init]⟩
  · intro h s a s' evs _ hi hs
    replace hs : step (some f) s a = some (s', evs) := hs
    obtain ⟨h1, h2, h3, h4, h5, h6⟩ := hi
    unfold queued at h3
    unfold handled at h3 h5
    unfold delivered at h5
    unfold dropped at h4
    unfold held at h3
    rp_cases hs <;> refine ⟨?_, ?_, ?_, ?_, ?_, ?_⟩ <;>
      simp_all [queued, handled, held, dropped, delivered, isQueued, isDropped, isDelivered, isHandled, itemSpan,
        List.filterMap_cons] <;>
      first | omega | skip

/-- The worker still takes items. -/
def Taking (s : State) : Prop := s.worker = .run ∨ ∃ x, s.worker = .span x

/-- The span in the hands of the worker. -/
def inHand (s : State) : List Nat := match s.worker with | .span x => [x] | _ => []

def NoClose (q : List Item) : Prop := ∀ g, .close g ∉ q

/-- No one has called `Close`. -/
structure Unclosed (s : State) : Prop where
  open_ : s.closed = false
  pc : ∀ g, s.pc g = .idle
  queue : NoClose s.queue
  worker : Taking s
  woken : ∀ g, s.woken g = false

/-- Where `Close` is after goroutine `w` called it first, when the history was `p`; the history since is `q`. -/
inductive Phase (p : List Ev) (w : Nat) (q : List Ev) (s : State) : Prop
  | sending : s.pc w = .sending → NoClose s.queue → Taking s → s.woken w = false →
      senderCloses (p ++ .close w :: q) = [] → Phase p w q s
  | waiting (q1 q2 : List Item) : s.pc w = .waiting → s.queue = q1 ++ .close w :: q2 → NoClose q1 → NoClose q2 →
      queued p <+: handled (p ++ .close w :: q) ++ (inHand s ++ q1.filterMap itemSpan) → Taking s →
      s.woken w = false → senderCloses (p ++ .close w :: q) = [] → Phase p w q s
  | closing : s.pc w = .waiting → NoClose s.queue → s.worker = .close w →
      queued p <+: handled (p ++ .close w :: q) → s.woken w = false →
      senderCloses (p ++ .close w :: q) = [] → Phase p w q s
  | fin (r1 r2 : List Ev) : NoClose s.queue → s.worker = .fin → s.woken w = true → q = r1 ++ .flush :: r2 →
      queued p <+: handled (p ++ .close w :: r1) → s.pc w ≠ .sending →
      senderCloses (p ++ .close w :: q) = (if s.pc w = .idle then [w] else []) → Phase p w q s

structure Closed (p : List Ev) (w : Nat) (q : List Ev) (s : State) : Prop where
  closed : s.closed = true
  others : ∀ g, g ≠ w → s.pc g = .idle
  phase : Phase p w q s

/-- The invariant of `Close`. -/
def InvC (h : List Ev) (s : State) : Prop :=
  ((∀ g, .close g ∉ h) ∧ senderCloses h = [] ∧ Unclosed s) ∨
    ∃ p w q, h = p ++ .close w :: q ∧ (∀ g, .close g ∉ p) ∧ Closed p w q s

theorem senderCloses_append (a b : List Ev) : senderCloses (a ++ b) = senderCloses a ++ senderCloses b :=
  List.filterMap_append ..

theorem handled_append (a b : List Ev) : handled (a ++ b) = handled a ++ handled b := List.filterMap_append ..

theorem noClose_append {q : List Item} {x : Nat} (h : NoClose q) : NoClose (q ++ [.span x]) := by
  intro g hg
  rw [List.mem_append, List.mem_singleton] at hg
  rcases hg with hg | hg
  · exact h g hg
  · cases hg

theorem noClose_tail {i : Item} {q : List Item} (h : NoClose (i :: q)) : NoClose q :=
  fun g hg => h g (List.mem_cons_of_mem _ hg)

theorem prefix_more {a b c : List Nat} (h : a <+: b) : a <+: b ++ c := h.trans (List.prefix_append _ _)

/-- Events that have nothing to do with closing the sender. -/
def Quiet (evs : List Ev) : Prop := senderCloses evs = []

/-- Steps that do not touch what the phase is about keep it. -/
theorem phase_quiet {p q evs : List Ev} {w : Nat} {s s' : State} (h : Phase p w q s) (hq : Quiet evs)
    (hh : handled evs = []) (hpc : s'.pc w = s.pc w) (hw : s'.worker = s.worker) (hk : s'.woken w = s.woken w)
    (hqu : s'.queue = s.queue ∨ ∃ x, s'.queue = s.queue ++ [.span x]) : Phase p w (q ++ evs) s' := by
  have e : p ++ .close w :: (q ++ evs) = (p ++ .close w :: q) ++ evs := by simp
  have hsc : senderCloses (p ++ .close w :: (q ++ evs)) = senderCloses (p ++ .close w :: q) := by
    rw [e, senderCloses_append, show senderCloses evs = [] from hq, List.append_nil]
  have hhe : handled (p ++ .close w :: (q ++ evs)) = handled (p ++ .close w :: q) := by
    rw [e, handled_append, hh, List.append_nil]
  have hnc : NoClose s.queue → NoClose s'.queue := by
    intro h
    rcases hqu with e | ⟨x, e⟩
    · rw [e]; exact h
    · rw [e]; exact noClose_append h
  have htk : Taking s → Taking s' := by unfold Taking; rw [hw]; exact id
  cases h with
  | sending h1 h2 h3 h4 h5 => exact .sending (hpc.trans h1) (hnc h2) (htk h3) (hk.trans h4) (hsc.trans h5)
  | waiting q1 q2 h1 h2 h3 h4 h5 h6 h7 h8 =>
    have hin : inHand s' = inHand s := by unfold inHand; rw [hw]
    rcases hqu with e | ⟨x, e⟩
    · exact .waiting q1 q2 (hpc.trans h1) (e.trans h2) h3 h4 (by rw [hhe, hin]; exact h5) (htk h6) (hk.trans h7)
        (hsc.trans h8)
    · exact .waiting q1 (q2 ++ [.span x]) (hpc.trans h1) (by rw [e, h2]; simp) h3 (noClose_append h4)
        (by rw [hhe, hin]; exact h5) (htk h6) (hk.trans h7) (hsc.trans h8)
  | closing h1 h2 h3 h4 h5 h6 =>
    exact .closing (hpc.trans h1) (hnc h2) (hw.trans h3) (by rw [hhe]; exact h4) (hk.trans h5) (hsc.trans h6)
  | fin r1 r2 h1 h2 h3 h4 h5 h6 h7 =>
    exact .fin r1 (r2 ++ evs) (hnc h1) (hw.trans h2) (hk.trans h3) (by rw [h4]; simp) h5 (by rw [hpc]; exact h6)
      (by rw [hsc, hpc]; exact h7)

theorem invC_run {h : List Ev} {s : State} (hr : (sys (some f)).Run h s) : InvC h s := by
  refine Lts.Run.invariant (P := fun h s => InvC h s) ?_ ?_ hr
  · exact Or.inl ⟨by simp, rfl, rfl, fun _ => rfl, by intro g; simp [sys, init], Or.inl rfl, fun _ => rfl⟩
  · intro h s a s' evs hr hi hs
    replace hs : step (some f) s a = some (s', evs) := hs
    have hA := invA_run hr
    have hd := hA.alive
    have hacc := hA.acc
    clear hr
    simp only [step, hd] at hs
    rw [if_neg (by decide)] at hs
    rcases hi with ⟨h1, h2, h3⟩ | ⟨p, w, q, rfl, h1, h2, h3, h4⟩
    · -- not closed yet
      have keep : ∀ (evs : List Ev) (s' : State), (∀ g, .close g ∉ evs) → senderCloses evs = [] → Unclosed s' →
          InvC (h ++ evs) s' := by
        intro evs s' he hsc hu
        refine Or.inl ⟨?_, by rw [senderCloses_append, h2, hsc]; rfl, hu⟩
        intro g hg
        rcases List.mem_append.1 hg with hg | hg
        · exact h1 g hg
        · exact he g hg
      cases a with
      | report x =>
        simp only at hs
        split at hs <;> cases hs
        · exact keep _ _ (by simp) rfl ⟨h3.open_, h3.pc, noClose_append h3.queue, h3.worker, h3.woken⟩
        · exact keep _ _ (by simp) rfl ⟨h3.open_, h3.pc, h3.queue, h3.worker, h3.woken⟩
      | close g =>
        simp only [h3.pc g, h3.open_, if_true] at hs
        cases hs
        refine Or.inr ⟨h, g, [], rfl, h1, rfl, ?_, ?_⟩
        · intro g' hg'; simp only [upd_of_ne _ _ hg']; exact h3.pc g'
        · refine .sending (by simp) h3.queue h3.worker (h3.woken g) ?_
          rw [senderCloses_append, h2]; rfl
      | go g => simp only [h3.pc g] at hs; cases hs
      | tick =>
        simp only at hs
        split at hs <;> cases hs
        exact keep _ _ (by simp) rfl h3
      | work =>
        simp only at hs
        rcases h3.worker with hw | ⟨x, hw⟩
        · simp only [hw] at hs
          split at hs <;> cases hs
          · rename_i x q heq
            refine keep _ _ (by simp) rfl ⟨h3.open_, h3.pc, ?_, Or.inr ⟨x, rfl⟩, h3.woken⟩
            have := h3.queue; rw [heq] at this; exact noClose_tail this
          · rename_i g q heq
            exact absurd (by rw [heq]; exact List.mem_cons_self) (h3.queue g)
        · simp only [hw] at hs
          cases hs
          refine keep _ _ ?_ ?_ ⟨h3.open_, h3.pc, h3.queue, Or.inl rfl, h3.woken⟩
          · intro g; split <;> simp
          · split <;> rfl
    · -- closed
      have fin : ∀ (evs : List Ev) (s' : State), s'.closed = true → (∀ g, g ≠ w → s'.pc g = .idle) →
          Phase p w (q ++ evs) s' → InvC (p ++ .close w :: q ++ evs) s' := by
        intro evs s' a b c
        exact Or.inr ⟨p, w, q ++ evs, by simp, h1, a, b, c⟩
      cases a with
      | report x =>
        simp only at hs
        split at hs <;> cases hs
        · exact fin _ _ h2 h3 (phase_quiet h4 rfl rfl rfl rfl rfl (Or.inr ⟨x, rfl⟩))
        · exact fin _ _ h2 h3 (phase_quiet h4 rfl rfl rfl rfl rfl (Or.inl rfl))
      | close g =>
        simp only [h2, if_true] at hs
        split at hs <;> cases hs
        exact fin _ _ h2 h3 (phase_quiet h4 rfl rfl rfl rfl rfl (Or.inl rfl))
      | tick =>
        simp only at hs
        split at hs <;> cases hs
        exact fin _ _ h2 h3 (phase_quiet h4 rfl rfl rfl rfl rfl (Or.inl rfl))
      | go g =>
        by_cases hg : g = w
        · subst hg
          have oth : ∀ x, ∀ g', g' ≠ g → upd s.pc g x g' = .idle := by
            intro x g' hg'; rw [upd_of_ne _ _ hg']; exact h3 g' hg'
          cases h4 with
          | sending p1 p2 p3 p4 p5 =>
            simp only [p1] at hs
            split at hs <;> cases hs
            refine fin _ _ h2 (oth _) (.waiting s.queue [] (by simp) rfl p2 (by intro g; simp) ?_ p3 p4 ?_)
            · rw [List.append_nil]
              change queued p <+: handled (p ++ Ev.close g :: q) ++ held s
              rw [← hacc]
              unfold queued
              rw [List.filterMap_append]
              exact List.prefix_append _ _
            · rw [List.append_nil]; exact p5
          | waiting q1 q2 p1 p2 p3 p4 p5 p6 p7 p8 =>
            simp only [p1, p7] at hs
            cases hs
          | closing p1 p2 p3 p4 p5 p6 =>
            simp only [p1, p5] at hs
            cases hs
          | fin r1 r2 p1 p2 p3 p4 p5 p6 p7 =>
            cases hpc : s.pc g with
            | idle => simp only [hpc] at hs; cases hs
            | sending => exact absurd hpc p6
            | waiting =>
              simp only [hpc, p3, if_true] at hs
              cases hs
              refine fin _ _ h2 (oth _) (.fin r1 r2 p1 p2 p3 (by rw [p4]; simp) p5 (by simp) ?_)
              rw [List.append_nil, p7, hpc]
              simp
            | sender =>
              simp only [hpc] at hs
              cases hs
              refine fin _ _ h2 (oth _) (.fin r1 (r2 ++ [.senderClosed g, .ret g]) p1 p2 p3 (by rw [p4]; simp) p5
                (by simp) ?_)
              have e : p ++ Ev.close g :: (q ++ [.senderClosed g, .ret g]) =
                  (p ++ .close g :: q) ++ [.senderClosed g, .ret g] := by simp
              rw [e, senderCloses_append, p7, hpc]
              simp [senderCloses, isSenderClosed, List.filterMap_cons]
        · simp only [h3 g hg] at hs; cases hs
      | work =>
        simp only at hs
        have e0 : ∀ evs, p ++ Ev.close w :: (q ++ evs) = (p ++ .close w :: q) ++ evs := by intro; simp
        cases h4 with
        | sending p1 p2 p3 p4 p5 =>
          rcases p3 with hw | ⟨x, hw⟩
          · simp only [hw] at hs
            split at hs <;> cases hs
            · rename_i x q' heq
              rw [heq] at p2
              exact fin _ _ h2 h3 (.sending p1 (noClose_tail p2) (Or.inr ⟨x, rfl⟩) p4 (by rw [List.append_nil]; exact p5))
            · rename_i g q' heq
              exact absurd (by rw [heq]; exact List.mem_cons_self) (p2 g)
          · simp only [hw] at hs
            cases hs
            refine fin _ _ h2 h3 (.sending p1 p2 (Or.inl rfl) p4 ?_)
            rw [e0, senderCloses_append, p5]; split <;> rfl
        | waiting q1 q2 p1 p2 p3 p4 p5 p6 p7 p8 =>
          rcases p6 with hw | ⟨x, hw⟩
          · simp only [hw] at hs
            have hin : inHand s = [] := by unfold inHand; rw [hw]
            rw [hin] at p5
            split at hs <;> cases hs
            · rename_i x q' heq
              rw [p2] at heq
              cases q1 with
              | nil => cases heq
              | cons i q1 =>
                cases heq
                refine fin _ _ h2 h3 (.waiting q1 q2 p1 rfl (noClose_tail p3) p4 ?_ (Or.inr ⟨x, rfl⟩) p7
                  (by rw [List.append_nil]; exact p8))
                rw [List.append_nil]
                simpa [inHand, itemSpan, List.filterMap_cons] using p5
            · rename_i g q' heq
              rw [p2] at heq
              cases q1 with
              | nil =>
                cases heq
                refine fin _ _ h2 h3 (.closing p1 p4 rfl ?_ p7 (by rw [List.append_nil]; exact p8))
                rw [List.append_nil]
                simpa using p5
              | cons i q1 =>
                cases heq
                exact absurd List.mem_cons_self (p3 g)
          · simp only [hw] at hs
            have hin : inHand s = [x] := by unfold inHand; rw [hw]
            rw [hin] at p5
            cases hs
            have hh : handled [if f x = true then Ev.delivered x else Ev.filtered x] = [x] := by split <;> rfl
            refine fin _ _ h2 h3 (.waiting q1 q2 p1 p2 p3 p4 ?_ (Or.inl rfl) p7 ?_)
            · rw [e0, handled_append, hh]
              simpa [inHand] using p5
            · rw [e0, senderCloses_append, p8]; split <;> rfl
        | closing p1 p2 p3 p4 p5 p6 =>
          simp only [p3] at hs
          cases hs
          refine fin _ _ h2 h3 (.fin q [] p2 rfl (by simp) rfl p4 (by rw [p1]; simp) ?_)
          rw [e0, senderCloses_append, p6, if_neg (by simp only; rw [p1]; simp)]; rfl
        | fin r1 r2 p1 p2 p3 p4 p5 p6 p7 =>
          simp only [p2] at hs
          cases hs

end Braid.Reporter
