import Verif.CallTree.WaitRest
import Verif.CallTree.WaitSteps

/-
C107: calls that wait for each other.
-/
namespace Braid.CallTree
open Spec

/-- C107: if nothing moves by itself, then an operation that has not returned is for a message that is not handled, and
the actor of that message is in a circle of actors waiting for each other, or waits for one that is. -/
theorem C107_circle {h : List Ev} {s : State} (hr : sys.Run h s) (ha : AtRest s) {d : Nat} (hp : Pending h d) :
    ∃ e b, For h d e ∧ Open h e ∧ ((s.op e).act = b ∨ Chain h (fun c => (s.op c).act) (s.op e).act b) ∧
      Chain h (fun c => (s.op c).act) b b := by
  obtain ⟨h1, h2⟩ := (pending_iff hr d).1 hp
  obtain ⟨e, h3, h4⟩ := rest_for hr ha _ d (Nat.le_refl _) h1 h2
  obtain ⟨b, h5, h6⟩ := rest_circle hr ha h4
  exact ⟨e, b, h3, (open_iff hr e).2 h4, h5, h6⟩

/-- C107: the same for a message that was accepted and is not handled, whoever sent it. -/
theorem C107_message {h : List Ev} {s : State} (hr : sys.Run h s) (ha : AtRest s) {e : Nat} (hp : Open h e) :
    ∃ b, ((s.op e).act = b ∨ Chain h (fun c => (s.op c).act) (s.op e).act b) ∧
      Chain h (fun c => (s.op c).act) b b :=
  rest_circle hr ha ((open_iff hr e).1 hp)

theorem frozen_exec {h0 : List Ev} {s0 : State} (hr0 : sys.Run h0 s0) (ha : AtRest s0) : ∀ (as : List Act)
    {h h' : List Ev} {s s' : State}, sys.Run h s → Frozen s0 s → sys.exec s as = some (s', h') →
    (∀ d, d < s0.n → (s0.op d).cpc.isRet = false → .timeout d ∉ h' ∧ .expired d ∉ h') → Frozen s0 s'
  | [], _, _, _, _, _, hf, he, _ => by cases he; exact hf
  | a :: as, h, h', s, s', hr, hf, he, hq => by
    simp only [Lts.exec] at he
    split at he
    · cases he
    · rename_i s1 e1 hs
      split at he
      · cases he
      · rename_i s2 e2 he2
        simp only [Option.some.injEq, Prod.mk.injEq] at he
        obtain ⟨rfl, rfl⟩ := he
        simp only [List.mem_append, not_or] at hq
        exact frozen_exec hr0 ha as (hr.step hs)
          (frozen_step hr0 ha hr hf hs fun d h1 h2 => ⟨(hq d h1 h2).1.1, (hq d h1 h2).2.1⟩) he2
          fun d h1 h2 => ⟨(hq d h1 h2).1.2, (hq d h1 h2).2.2⟩

/-- C107: and so it stays. Whatever is begun afterwards, by whom and with whatever groups: as long as no waiting operation
runs into its timeout, the end of its context or a failed remote call, none of them returns and no message that was not
handled is handled. -/
theorem C107_forever {h h' : List Ev} {s s' : State} (hr : sys.Run h s) (ha : AtRest s) {as : List Act}
    (he : sys.exec s as = some (s', h')) (hq : ∀ d, Pending h d → .timeout d ∉ h' ∧ .expired d ∉ h') :
    (∀ d, Pending h d → Pending (h ++ h') d) ∧ (∀ e, Open h e → Open (h ++ h') e) := by
  have hr' := hr.exec he
  have hf := frozen_exec hr ha as hr (frozen_refl s) he fun d h1 h2 => hq d ((pending_iff hr d).2 ⟨h1, h2⟩)
  constructor
  · intro d hd
    obtain ⟨h1, h2⟩ := (pending_iff hr d).1 hd
    exact (pending_iff hr' d).2 ⟨Nat.lt_of_lt_of_le h1 hf.le, by rw [(hf.op d h1 h2).1]; exact h2⟩
  · intro e ho
    have h1 := (open_iff hr e).1 ho
    refine (open_iff hr' e).2 ?_
    rw [hf.msg e (open_lt hr h1) h1]; exact h1

theorem chain_rank {h : List Ev} {act rank : Nat → Nat} (hl : Layered h act rank) {a b : Nat} (hc : Chain h act a b) :
    rank a < rank b := by
  have h1 : ∀ {a b}, Stuck h act a b → rank a < rank b := by
    rintro a b ⟨m, d, e, k, g, rfl, -, h2, -, h3, -, rfl⟩
    exact hl m d e k g h2 h3
  induction hc with
  | one h2 => exact h1 h2
  | more h2 _ ih => exact Nat.lt_trans (h1 h2) ih

/-- C107, partial (handlers only wait for actors of a higher rank): once nothing moves by itself, every operation has
returned and every accepted message has been handled, without any timeout. -/
theorem C107_layered_partial {h : List Ev} {s : State} (hr : sys.Run h s) (ha : AtRest s) {rank : Nat → Nat}
    (hl : Layered h (fun c => (s.op c).act) rank) :
    (∀ d t k g, .begin d t k g ∈ h → ∃ ok e, .ret d ok e ∈ h) ∧ (∀ e, .accepted e ∈ h → .handled e ∈ h) := by
  classical
  constructor
  · intro d t k g hb
    apply Classical.byContradiction
    intro hn
    obtain ⟨e, b, -, -, -, h4⟩ := C107_circle hr ha (d := d) ⟨⟨t, k, g, hb⟩, fun ok e h1 => hn ⟨ok, e, h1⟩⟩
    exact absurd (chain_rank hl h4) (Nat.lt_irrefl _)
  · intro e h1
    apply Classical.byContradiction
    intro hn
    obtain ⟨b, -, h4⟩ := C107_message hr ha (e := e) ⟨h1, hn⟩
    exact absurd (chain_rank hl h4) (Nat.lt_irrefl _)

/-- C107: the system comes to rest: an execution has at most 14 steps for each operation begun in it, not counting
the beginnings themselves and `mw.Err` set by user code. -/
theorem C107_steps {as : List Act} {h : List Ev} {s : State} (he : sys.exec init as = some (s, h)) :
    (as.filter fun a => !fromUser a).length ≤ 14 * (as.filter isBegin).length := by
  have h1 := steps_le as (h := []) (s := init) .init he
  have h2 : total init.op init.n = 0 := rfl
  omega

/-! ### Circles -/

/-- Can operation `c`, or the actor it is for, go on? -/
def still (s : State) (c : Nat) : Bool :=
  (step s (.go c false)).isNone && (step s (.go c true)).isNone && (step s (.outer c false)).isNone &&
  (step s (.inner c)).isNone && (step s (.take (s.op c).act)).isNone && (step s (.finish (s.op c).act)).isNone &&
  (step s (.release (s.op c).act)).isNone && !(ready s (.acc c))

theorem atRest_of {h : List Ev} {s : State} (hr : sys.Run h s)
    (hc : ((List.range s.n).all (still s)) = true) : AtRest s := by
  have hi := inv_run hr
  have hc : ∀ c, c < s.n → still s c = true := fun c hn => List.all_eq_true.1 hc c (List.mem_range.2 hn)
  have ha : ∀ a, (s.busy a = none ∧ s.queue a = []) ∨ ∃ c, c < s.n ∧ (s.op c).act = a := by
    intro a
    cases hb : s.busy a with
    | some m => exact .inr ⟨m, hi.q.busyLt _ _ hb, hi.q.busyAct _ _ hb⟩
    | none =>
      cases hq : s.queue a with
      | nil => exact .inl ⟨rfl, rfl⟩
      | cons m r => exact .inr ⟨m, hi.q.queueLt a m (by rw [hq]; simp), hi.q.queueAct a m (by rw [hq]; simp)⟩
  intro a ho
  cases a with
  | begin t k a g w =>
    cases t with
    | ext n => cases ho
    | hnd m => cases ho
    | acc r =>
      have : ready s (.acc r) = false := by
        by_cases hn : r < s.n
        · have := hc r hn
          simp only [still, Bool.and_eq_true, Bool.not_eq_true'] at this
          exact this.2
        · simp [ready, hi.b.unused r (by omega), noOp]
      simp [step, this]
  | go c r =>
    by_cases hn : c < s.n
    · have := hc c hn
      simp only [still, Bool.and_eq_true, Option.isNone_iff_eq_none] at this
      cases r
      · exact this.1.1.1.1.1.1.1
      · exact this.1.1.1.1.1.1.2
    · simp [step, hn]
  | outer c b =>
    by_cases hn : c < s.n
    · have := hc c hn
      simp only [still, Bool.and_eq_true, Option.isNone_iff_eq_none] at this
      cases b
      · exact this.1.1.1.1.1.2
      · cases ho
    · simp [step, hn]
  | inner c =>
    by_cases hn : c < s.n
    · have := hc c hn
      simp only [still, Bool.and_eq_true, Option.isNone_iff_eq_none] at this
      exact this.1.1.1.1.2
    · simp [step, hn]
  | take a =>
    rcases ha a with ⟨h1, h2⟩ | ⟨c, hn, rfl⟩
    · simp [step, h1, h2]
    · have := hc c hn
      simp only [still, Bool.and_eq_true, Option.isNone_iff_eq_none] at this
      exact this.1.1.1.2
  | finish a =>
    rcases ha a with ⟨h1, h2⟩ | ⟨c, hn, rfl⟩
    · simp [step, h1]
    · have := hc c hn
      simp only [still, Bool.and_eq_true, Option.isNone_iff_eq_none] at this
      exact this.1.1.2
  | release a =>
    rcases ha a with ⟨h1, h2⟩ | ⟨c, hn, rfl⟩
    · simp [step, h1]
    · have := hc c hn
      simp only [still, Bool.and_eq_true, Option.isNone_iff_eq_none] at this
      exact this.1.2
  | expire c => cases ho
  | setErr w => cases ho

/-- Goroutine `t` calls actor `a` with a fresh group and the same name, up to the point where it waits. -/
def callTo (t : Thr) (c a : Nat) : List Act :=
  [.begin t .call a c c, .go c false, .go c false, .go c false, .go c false, .go c false, .outer c false]

def callEvs (t : Thr) (c : Nat) : List Ev := [.begin c t .call c, .root c, .accepted c]

theorem run_getD {as : List Act} {h : List Ev} (he : (sys.exec init as).map (·.2) = some h) :
    sys.Run h ((sys.exec init as).getD (init, [])).1 := by
  cases h1 : sys.exec init as with
  | none => rw [h1] at he; cases he
  | some p =>
    rw [h1] at he
    cases he
    exact Lts.run_of_exec (M := sys) h1

/-- A program calls actor 0, whose handler calls actor 1, whose handler calls actor 2, whose handler calls actor 1. -/
def ringActs : List Act :=
  callTo (.ext 0) 0 0 ++ .take 0 :: callTo (.hnd 0) 1 1 ++ .take 1 :: callTo (.hnd 1) 2 2 ++ .take 2 ::
  callTo (.hnd 2) 3 1

def ringHist : List Ev := callEvs (.ext 0) 0 ++ callEvs (.hnd 0) 1 ++ callEvs (.hnd 1) 2 ++ callEvs (.hnd 2) 3

def ringState : State := ((sys.exec init ringActs).getD (init, [])).1

theorem ring_run : sys.Run ringHist ringState := run_getD (by decide +kernel)

theorem ring_rest : AtRest ringState := atRest_of ring_run (by decide +kernel)

/-- Two programs call actors 0 and 1, whose handlers call each other. -/
def crossActs : List Act :=
  callTo (.ext 0) 0 0 ++ callTo (.ext 1) 1 1 ++ .take 0 :: .take 1 :: callTo (.hnd 0) 2 1 ++ callTo (.hnd 1) 3 0

def crossHist : List Ev := callEvs (.ext 0) 0 ++ callEvs (.ext 1) 1 ++ callEvs (.hnd 0) 2 ++ callEvs (.hnd 1) 3

def crossState : State := ((sys.exec init crossActs).getD (init, [])).1

theorem cross_run : sys.Run crossHist crossState := run_getD (by decide +kernel)

theorem cross_rest : AtRest crossState := atRest_of cross_run (by decide +kernel)

/-- C107 refuted: the check of `Received` does not keep actors from waiting for each other. A call goes from a program
through actors 0, 1 and 2 back to 1. The originator in the header is actor 0, and no actor calls itself, so nothing is
refused; nothing moves by itself, and all four calls wait until their timeouts. -/
theorem C107_refuted : ∃ h s, sys.Run h s ∧ AtRest s ∧ (∀ d o, Org h (fun c => (s.op c).act) d o → (s.op d).act ≠ o) ∧
    (∀ d m k g, .begin d (.hnd m) k g ∈ h → (s.op d).act ≠ (s.op m).act) ∧
    (∀ d, .timeout d ∉ h ∧ .expired d ∉ h) ∧ (∀ d, d < 4 → Pending h d) ∧
    Stuck h (fun c => (s.op c).act) 1 2 ∧ Stuck h (fun c => (s.op c).act) 2 1 := by
  have hb : ∀ d t k g, Ev.begin d t k g ∈ ringHist → d = 0 ∧ t = .ext 0 ∨ d = 1 ∧ t = .hnd 0 ∨ d = 2 ∧ t = .hnd 1 ∨
      d = 3 ∧ t = .hnd 2 := by
    intro d t k g h
    simp [ringHist, callEvs] at h
    rcases h with ⟨h1, h2, -⟩ | ⟨h1, h2, -⟩ | ⟨h1, h2, -⟩ | ⟨h1, h2, -⟩ <;> simp [h1, h2]
  have hno : ∀ d, NoOrg ringHist d → d = 0 := by
    intro d h
    cases h with
    | ext h1 => rcases hb _ _ _ _ h1 with h | h | h | h <;> simp_all
    | far h1 => rcases hb _ _ _ _ h1 with h | h | h | h <;> simp_all
  have ho : ∀ d o, Org ringHist (fun c => (ringState.op c).act) d o → o = 0 ∧ d ≠ 0 ∧ d < 4 := by
    intro d o h
    induction h with
    | first h1 h2 =>
      have := hno _ h2
      subst this
      refine ⟨rfl, ?_⟩
      rcases hb _ _ _ _ h1 with h | h | h | h <;> simp_all
    | next h1 _ ih =>
      refine ⟨ih.1, ?_⟩
      rcases hb _ _ _ _ h1 with h | h | h | h <;> simp_all
    | far h1 => rcases hb _ _ _ _ h1 with h | h | h | h <;> simp_all
  have hp : ∀ d, d < 4 → Pending ringHist d := by
    intro d hd
    refine (pending_iff ring_run d).2 ⟨hd, ?_⟩
    revert d
    decide +kernel
  have hop : ∀ e, e < 4 → Open ringHist e := by
    intro d hd
    refine (open_iff ring_run d).2 ?_
    revert d
    decide +kernel
  refine ⟨ringHist, ringState, ring_run, ring_rest, ?_, ?_, ?_, hp, ?_, ?_⟩
  · intro d o h
    obtain ⟨rfl, h1, h2⟩ := ho d o h
    have h3 : ∀ d, d < 4 → d ≠ 0 → (ringState.op d).act ≠ 0 := by decide +kernel
    exact h3 d h2 h1
  · intro d m k g h
    rcases hb _ _ _ _ h with ⟨rfl, h2⟩ | ⟨rfl, h2⟩ | ⟨rfl, h2⟩ | ⟨rfl, h2⟩ <;> cases h2 <;> clear h <;> decide +kernel
  · intro d; simp [ringHist, callEvs]
  · exact ⟨1, 2, 2, .call, 2, rfl, hop 1 (by decide), by simp [ringHist, callEvs], hp 2 (by decide),
      .group (t := .hnd 1) (k := .call) (g := 2) (by simp [ringHist, callEvs]) (by simp [ringHist, callEvs])
        (t' := .hnd 1) (k' := .call) (by simp [ringHist, callEvs]), hop 2 (by decide), rfl⟩
  · exact ⟨2, 3, 3, .call, 3, rfl, hop 2 (by decide), by simp [ringHist, callEvs], hp 3 (by decide),
      .group (t := .hnd 2) (k := .call) (g := 3) (by simp [ringHist, callEvs]) (by simp [ringHist, callEvs])
        (t' := .hnd 2) (k' := .call) (by simp [ringHist, callEvs]), hop 3 (by decide), rfl⟩

/-- C107 refuted: no check of the way of a message could. Two programs call actors 0 and 1, whose handlers call each
other. No call goes to an actor it came through, and all four calls wait until their timeouts. -/
theorem C107_cross_refuted : ∃ h s, sys.Run h s ∧ AtRest s ∧ (∀ d m, Above h d m → (s.op d).act ≠ (s.op m).act) ∧
    (∀ d, .timeout d ∉ h ∧ .expired d ∉ h) ∧ (∀ d, d < 4 → Pending h d) ∧
    Stuck h (fun c => (s.op c).act) 0 1 ∧ Stuck h (fun c => (s.op c).act) 1 0 := by
  have hb : ∀ d t k g, Ev.begin d t k g ∈ crossHist → d = 0 ∧ t = .ext 0 ∨ d = 1 ∧ t = .ext 1 ∨ d = 2 ∧ t = .hnd 0 ∨
      d = 3 ∧ t = .hnd 1 := by
    intro d t k g h
    simp [crossHist, callEvs] at h
    rcases h with ⟨h1, h2, -⟩ | ⟨h1, h2, -⟩ | ⟨h1, h2, -⟩ | ⟨h1, h2, -⟩ <;> simp [h1, h2]
  have ho : ∀ d m, Above crossHist d m → d = 2 ∧ m = 0 ∨ d = 3 ∧ m = 1 := by
    intro d m h
    induction h with
    | here h1 => rcases hb _ _ _ _ h1 with h | h | h | h <;> simp_all
    | up h1 _ ih => rcases hb _ _ _ _ h1 with h | h | h | h <;> simp_all
    | far h1 => rcases hb _ _ _ _ h1 with h | h | h | h <;> simp_all
  have hp : ∀ d, d < 4 → Pending crossHist d := by
    intro d hd
    refine (pending_iff cross_run d).2 ⟨hd, ?_⟩
    revert d
    decide +kernel
  have hop : ∀ e, e < 4 → Open crossHist e := by
    intro d hd
    refine (open_iff cross_run d).2 ?_
    revert d
    decide +kernel
  refine ⟨crossHist, crossState, cross_run, cross_rest, ?_, ?_, hp, ?_, ?_⟩
  · intro d m h
    rcases ho d m h with ⟨rfl, rfl⟩ | ⟨rfl, rfl⟩ <;> decide +kernel
  · intro d; simp [crossHist, callEvs]
  · exact ⟨0, 2, 2, .call, 2, rfl, hop 0 (by decide), by simp [crossHist, callEvs], hp 2 (by decide),
      .group (t := .hnd 0) (k := .call) (g := 2) (by simp [crossHist, callEvs]) (by simp [crossHist, callEvs])
        (t' := .hnd 0) (k' := .call) (by simp [crossHist, callEvs]), hop 2 (by decide), rfl⟩
  · exact ⟨1, 3, 3, .call, 3, rfl, hop 1 (by decide), by simp [crossHist, callEvs], hp 3 (by decide),
      .group (t := .hnd 1) (k := .call) (g := 3) (by simp [crossHist, callEvs]) (by simp [crossHist, callEvs])
        (t' := .hnd 1) (k' := .call) (by simp [crossHist, callEvs]), hop 3 (by decide), rfl⟩

/-! ### Examples -/

/-- The hypotheses of `C107_circle`, `C107_message` and `C107_forever` hold after the calls in a ring, while another
program calls actor 5 and is answered. -/
example : (∃ h s, sys.Run h s ∧ AtRest s ∧ Pending h 0 ∧ Open h 3) ∧
    ∃ as s' h', sys.exec ringState as = some (s', h') ∧ (∀ d, Pending ringHist d → .timeout d ∉ h' ∧ .expired d ∉ h') ∧
      .handled 4 ∈ h' ∧ .ret 4 true false ∈ h' := by
  refine ⟨⟨ringHist, ringState, ring_run, ring_rest, (pending_iff ring_run 0).2 ⟨by decide +kernel, by decide +kernel⟩,
    (open_iff ring_run 3).2 (by decide +kernel)⟩,
    callTo (.ext 7) 4 5 ++ [.take 5, .finish 5, .release 5, .release 5, .inner 4, .outer 4 false, .outer 4 false,
      .go 4 false], _, callEvs (.ext 7) 4 ++ [.handled 4, .ret 4 true false], rfl, ?_, ?_, ?_⟩
  · intro d _; simp [callEvs]
  · simp
  · simp

/-- A program calls actor 0, whose handler calls actor 1, and everything ends. -/
def upActs : List Act :=
  callTo (.ext 0) 0 0 ++ .take 0 :: callTo (.hnd 0) 1 1 ++ [.take 1, .finish 1, .release 1, .release 1, .inner 1,
    .outer 1 false, .outer 1 false, .go 1 false, .finish 0, .release 0, .release 0, .inner 0, .outer 0 false,
    .outer 0 false, .go 0 false]

def upHist : List Ev :=
  callEvs (.ext 0) 0 ++ callEvs (.hnd 0) 1 ++ [.handled 1, .ret 1 true false, .handled 0, .ret 0 true false]

def upState : State := ((sys.exec init upActs).getD (init, [])).1

theorem up_run : sys.Run upHist upState := run_getD (by decide +kernel)

/-- The hypotheses of `C107_layered_partial` hold, with the number of the actor for its rank; of the 30 steps two are
beginnings, and the bound of `C107_steps` is reached. -/
example : sys.Run upHist upState ∧ AtRest upState ∧ Layered upHist (fun c => (upState.op c).act) id ∧
    .begin 1 (.hnd 0) .call 1 ∈ upHist ∧ (upActs.filter fun a => !fromUser a).length = 28 ∧
    (upActs.filter isBegin).length = 2 := by
  refine ⟨up_run, atRest_of up_run (by decide +kernel), ?_, by simp [upHist, callEvs], rfl, rfl⟩
  intro m d e k g h1 h2
  simp [upHist, callEvs] at h1
  obtain ⟨rfl, rfl, -, rfl⟩ := h1
  cases h2 with
  | group h3 _ h4 =>
    simp [upHist, callEvs] at h3 h4
    obtain ⟨-, -, rfl⟩ := h3
    have : e = 1 := by
      rcases h4 with ⟨-, -, -, h⟩ | ⟨h, -⟩
      · cases h
      · exact h
    subst this
    exact (by decide +kernel : (upState.op 0).act < (upState.op 1).act)
  | remote h3 => simp [upHist, callEvs] at h3

end Braid.CallTree
