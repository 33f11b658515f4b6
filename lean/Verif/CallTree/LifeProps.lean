import Verif.CallTree.LifeInv

/-
Property C131: the goroutines that a call starts end.
-/
namespace Braid.CallTree
open Spec

/-- C131: when nothing moves any more every operation has returned, whatever ended in between. -/
theorem C131_returns {h : List Ev} {s : Life} (hr : lifeSys.Run h s) (hq : Quiet s) {d : Nat} {t : Thr} {k : Kind} {g : Nat}
    (hb : .begin d t k g ∈ h) : ∃ ok e, .ret d ok e ∈ h := by
  have hn := (invE_run (life_run hr)).lt _ _ _ _ hb
  exact (invL_run (life_run hr)).ret d hn (quiet_ret hr hq _ d (Nat.le_add_left _ _) hn)

/-- C131: and the goroutine that waits for the answer or the timeout has ended for every call. -/
theorem C131_waiter {h : List Ev} {s : Life} (hr : lifeSys.Run h s) (hq : Quiet s) (c : Nat) : ¬ Waiter s c := by
  rintro ⟨hn, ho⟩
  have hb := life_run hr
  have h1 := quiet_ret hr hq _ c (Nat.le_add_left _ _) hn
  have h2 := quiet_outer hq hn true
  have h3 : (s.base.op c).root = true := by
    cases hc : (s.base.op c).root with
    | true => rfl
    | false => rw [((inv_run hb).ok c).notRoot hc] at ho; simp at ho
  have h4 := ret_ready hb c h3 h1
  rcases hc : (s.base.op c).outer <;> rw [hc] at ho <;> first | (simp at ho; done) | simp [stepOuter, hc, h4] at h2

/-- C131, in part: the goroutine that waits for the group has ended too, unless a message with the group is in the mailbox of an
actor that has ended. -/
theorem C131_group_partial {h : List Ev} {s : Life} (hr : lifeSys.Run h s) (hq : Quiet s) {c : Nat} (hw : GroupWaiter s c) :
    Stranded s c := by
  obtain ⟨hn, hi⟩ := hw
  have hb := life_run hr
  have h1 : s.base.wg (s.base.op c).grp ≠ 0 := by
    intro h0
    have := quiet_step hq (b := .inner c) rfl (by simp) (by simp)
    simp [step, hn, hi, h0] at this
  have h2 := (invC_run hb).wg (s.base.op c).grp
  obtain ⟨e, h3, h4, h5⟩ := tot_pos (f := hold2) (op := s.base.op) (g := (s.base.op c).grp) (n := s.base.n) (by omega)
  obtain ⟨h6, h7⟩ := quiet_hold hr hq h3 h5
  exact ⟨e, _, h6, h7, h4⟩

/-- C131: as long as no actor ends, every goroutine of every call ends and every message is handled. -/
theorem C131_alive {h : List Ev} {s : Life} (hr : lifeSys.Run h s) (hq : Quiet s) (hd : ∀ a, s.dead a = false) :
    (∀ c, ¬ Waiter s c ∧ ¬ GroupWaiter s c) ∧ ∀ e, .accepted e ∈ h → .handled e ∈ h := by
  refine ⟨fun c => ⟨C131_waiter hr hq c, fun hw => ?_⟩, fun e he => ?_⟩
  · obtain ⟨e, a, -, h1, -⟩ := C131_group_partial hr hq hw
    rw [hd] at h1; cases h1
  · apply Classical.byContradiction
    intro hn
    have hb := life_run hr
    have h1 := (open_iff hb e).1 ⟨he, hn⟩
    have hlt : e < s.base.n := by
      apply Nat.lt_of_not_le
      intro h2
      rw [(inv_run hb).b.unused e h2] at h1
      cases h1
    have h2 := (quiet_hold hr hq hlt (hold2_open h1)).2
    rw [hd] at h2; cases h2

/-- C131: the waiter for the group of a root call is left whenever the message of the call itself is in such a mailbox. -/
theorem C131_left {h : List Ev} {s : Life} (hr : lifeSys.Run h s) (hq : Quiet s) {c : Nat} (hc : .root c ∈ h)
    (ha : .accepted c ∈ h) (hh : .handled c ∉ h) : GroupWaiter s c := by
  have hb := life_run hr
  have hi := inv_run hb
  have h1 := (open_iff hb c).1 ⟨ha, hh⟩
  have hn : c < s.base.n := by
    apply Nat.lt_of_not_le
    intro h2
    rw [hi.b.unused c h2] at h1
    cases h1
  have h2 := (invE_run hb).root c hc
  have h3 := ret_ready hb c h2 (quiet_ret hr hq _ c (Nat.le_add_left _ _) hn)
  have h4 := C131_waiter hr hq c
  have h5 := (invL_run hb).outer c h2
  have h6 := closed_done hb c
  refine ⟨hn, ?_⟩
  cases ho : (s.base.op c).inner with
  | waiting => rfl
  | closed =>
    rcases h6 ho with h7 | ⟨h7, -⟩ <;> rw [h7] at h1 <;> cases h1
  | off =>
    exfalso
    refine inner_on hb c ?_ ho
    cases h7 : (s.base.op c).outer <;> first | rfl | exact absurd h7 h5 | exact absurd ⟨hn, by rw [h7]; simp⟩ h4

/-- C131: what is left stays: neither new work nor any timeout ends a goroutine that waits for a group with a message in the mailbox
of an actor that has ended. -/
theorem C131_forever {h h' : List Ev} {s s' : Life} {as : List LifeAct} (hr : lifeSys.Run h s) {c : Nat}
    (hw : GroupWaiter s c) (ht : Stranded s c) (he : lifeSys.exec s as = some (s', h')) : GroupWaiter s' c := by
  induction as generalizing h h' s with
  | nil => cases he; exact hw
  | cons a as ih =>
    simp only [Lts.exec] at he
    split at he
    · cases he
    · rename_i s1 e1 h1
      split at he
      · cases he
      · rename_i s2 e2 h2
        cases he
        obtain ⟨h3, h4⟩ := stranded_step hr h1 hw ht
        exact ih (hr.step h1) h3 h4 h2

theorem life_exec : ∀ (as : List LifeAct) {s s' : Life} {h : List Ev}, lifeSys.exec s as = some (s', h) →
    sys.exec s.base (as.filterMap fun | .op a => some a | _ => none) = some (s'.base, h)
  | [], s, s', h, he => by cases he; rfl
  | a :: as, s, s', h, he => by
    simp only [Lts.exec] at he
    split at he
    · cases he
    · rename_i s1 e1 h1
      split at he
      · cases he
      · rename_i s2 e2 h2
        cases he
        have ih := life_exec as h2
        change lifeStep s a = _ at h1
        cases a with
        | op b =>
          rcases life_base h1 with ⟨b', hb, h3, -, -⟩ | ⟨h3, -⟩
          · cases hb
            have h3 : sys.step s.base b = some (s1.base, e1) := h3
            simp only [List.filterMap_cons, Lts.exec, h3, ih]
          · exact absurd rfl (h3 b)
        | shut x => cases h1; simpa using ih
        | die x =>
          rcases life_base h1 with ⟨b', hb, -, -, -⟩ | ⟨-, rfl, h3, -⟩
          · cases hb
          · rw [h3] at ih; simpa using ih

/-- C131: nothing goes on for ever: every operation causes at most 14 steps, whoever ends in between. -/
theorem C131_steps {as : List LifeAct} {h : List Ev} {s : Life} (he : lifeSys.exec lifeInit as = some (s, h)) :
    (as.filter lifeOwn).length ≤ 14 * (as.filter lifeBegin).length := by
  have h1 := C107_steps (life_exec as he)
  have h2 : ∀ (as : List LifeAct), ((as.filterMap fun | .op a => some a | _ => none).filter fun a => !fromUser a).length =
      (as.filter lifeOwn).length := by
    intro as
    induction as with
    | nil => rfl
    | cons a as ih =>
      cases a with
      | op b => simp only [List.filterMap_cons, List.filter_cons, lifeOwn]; split <;> simp_all
      | shut x => simpa [lifeOwn] using ih
      | die x => simpa [lifeOwn] using ih
  have h3 : ∀ (as : List LifeAct), ((as.filterMap fun | .op a => some a | _ => none).filter isBegin).length =
      (as.filter lifeBegin).length := by
    intro as
    induction as with
    | nil => rfl
    | cons a as ih =>
      cases a with
      | op b => simp only [List.filterMap_cons, List.filter_cons, lifeBegin]; split <;> simp_all
      | shut x => simpa [lifeBegin] using ih
      | die x => simpa [lifeBegin] using ih
  rw [h2, h3] at h1
  exact h1

/-! ### Actors that end -/

/-- Call `k` of the program: to an actor of its own, which ends while `Received` is between its check and its push. -/
def strand (k : Nat) : List LifeAct :=
  [.op (.begin (.ext 0) .call k k k), .op (.go k false), .shut k, .die k, .op (.go k false), .op (.go k false),
    .op (.go k false), .op (.go k false), .op (.outer k false), .op (.outer k true), .op (.outer k false), .op (.go k false)]

def strandEvs (k : Nat) : List Ev :=
  [.begin k (.ext 0) .call k, .root k, .accepted k, .timeout k, .ret k true true]

/-- After the calls up to `n`. -/
structure AfterStrand (n : Nat) (s : Life) : Prop where
  size : s.base.n = n
  ops : ∀ c, c < n → s.base.op c = ⟨.ext 0, .call, c, c, c, true, .returned true, .queued, true, .ended, .waiting⟩
  cur : ∀ t, s.base.cur t = none
  busy : ∀ a, s.base.busy a = none
  queue : ∀ a, s.base.queue a = if a < n then [a] else []
  cnt : ∀ g, n ≤ g → s.base.cnt g = 0
  wg : ∀ g, s.base.wg g = if g < n then 1 else 0
  dead : ∀ a, s.dead a = decide (a < n)
  shut : ∀ a, s.shut a = decide (a < n)

theorem strand_exec {n : Nat} {s : Life} (h : AfterStrand n s) :
    ∃ s', lifeSys.exec s (strand n) = some (s', strandEvs n) ∧ AfterStrand (n + 1) s' := by
  obtain ⟨h1, h2, h3, h4, h5, h6, h7, h8, h9⟩ := h
  have e1 : s.base.cnt n = 0 := h6 n (Nat.le_refl _)
  have e2 : s.shut n = false := by simp [h9]
  have e3 : s.base.queue n = [] := by simp [h5]
  simp only [Lts.exec, lifeSys, lifeStep, strand, strandEvs, step, stepGo, stepOuter, ret, startRpc, endRpc, ready, h1, h3,
    upd_same]
  simp [h4, e1, e2, e3, upd_same]
  constructor
  case ops =>
    intro c hc
    by_cases hn : c = n
    · subst hn; simp [upd_apply]
    · simp only [upd_apply, if_neg hn]
      exact h2 c (by omega)
  all_goals (try dsimp only) <;> grind [upd_apply]

theorem strand_run : ∀ n, ∃ s, lifeSys.Run ((List.range n).flatMap strandEvs) s ∧ AfterStrand n s
  | 0 => ⟨lifeInit, .init, by constructor <;> simp [lifeInit, init]⟩
  | n + 1 => by
    obtain ⟨s, h1, h2⟩ := strand_run n
    obtain ⟨s', h3, h4⟩ := strand_exec h2
    refine ⟨s', ?_, h4⟩
    rw [List.range_succ, List.flatMap_append, List.flatMap_singleton]
    exact h1.exec h3

theorem strand_quiet {n : Nat} {h : List Ev} {s : Life} (hr : lifeSys.Run h s) (ha : AfterStrand n s) : Quiet s := by
  obtain ⟨h1, h2, h3, h4, h5, h6, h7, h8, h9⟩ := ha
  have hu := (inv_run (life_run hr)).b.unused
  intro a hm
  rcases a with b | x | x
  · cases b with
    | begin t k x g w =>
      cases t with
      | acc r =>
        have : (s.base.op r).cpc ≠ .rpc := by
          by_cases hn : r < n
          · rw [h2 r hn]; simp
          · rw [hu r (by omega)]; simp [noOp]
        simp [lifeStep, step, h3, ready, this]
      | _ => cases hm
    | go c r =>
      by_cases hn : c < n
      · simp [lifeStep, step, h1, hn, stepGo, h2 c hn]
      · simp [lifeStep, step, h1, hn]
    | outer c b =>
      by_cases hn : c < n
      · simp [lifeStep, step, h1, hn, stepOuter, h2 c hn]
      · simp [lifeStep, step, h1, hn]
    | inner c =>
      by_cases hn : c < n
      · simp [lifeStep, step, h1, hn, h2 c hn, h7]
      · simp [lifeStep, step, h1, hn]
    | take a =>
      by_cases hn : a < n
      · simp [lifeStep, h8, hn]
      · simp [lifeStep, step, h4, h5, hn]
    | finish a => simp [lifeStep, step, h4]
    | release a => simp [lifeStep, step, h4]
    | expire c => cases hm
    | setErr w => cases hm
  · cases hm
  · cases hm

/-- C131 refuted: a program makes `n` calls, one after the other. Each is to an actor that ends between the check and the push of
`Received`; each is accepted, runs into its timeout and returns. Nothing moves any more, and all `n` goroutines that wait for the
groups of the calls are left. -/
theorem C131_leak_refuted (n : Nat) : ∃ h s, lifeSys.Run h s ∧ Quiet s ∧ s.base.n = n ∧
    h = (List.range n).flatMap (fun k => [.begin k (.ext 0) .call k, .root k, .accepted k, .timeout k, .ret k true true]) ∧
    ∀ c, c < n → GroupWaiter s c ∧ Stranded s c := by
  obtain ⟨s, h1, h2⟩ := strand_run n
  refine ⟨_, s, h1, strand_quiet h1 h2, h2.size, rfl, fun c hc => ?_⟩
  exact ⟨⟨by rw [h2.size]; exact hc, by rw [h2.ops c hc]⟩, c, c, by simp [h2.queue, hc], by simp [h2.dead, hc], rfl⟩

/-- With `C131_forever`: nothing that happens later ends them. -/
example : ∃ h s, lifeSys.Run h s ∧ Quiet s ∧ ∀ as s' h', lifeSys.exec s as = some (s', h') →
    ∀ c, c < 1000 → GroupWaiter s' c := by
  obtain ⟨h, s, h1, h2, -, -, h3⟩ := C131_leak_refuted 1000
  exact ⟨h, s, h1, h2, fun as s' h' he c hc => C131_forever h1 (h3 c hc).1 (h3 c hc).2 he⟩

/-- The hypotheses of the theorems above hold, with a call that is left behind: of its 11 steps beside its begin two are the end of
the actor. -/
example : ∃ h s, lifeSys.Run h s ∧ Quiet s ∧ .begin 0 (.ext 0) .call 0 ∈ h ∧ .root 0 ∈ h ∧ .accepted 0 ∈ h ∧
    .handled 0 ∉ h ∧ GroupWaiter s 0 ∧ Stranded s 0 := by
  obtain ⟨h, s, h1, h2, -, rfl, h3⟩ := C131_leak_refuted 1
  exact ⟨_, s, h1, h2, by simp, by simp, by simp, by simp, (h3 0 (by omega)).1, (h3 0 (by omega)).2⟩

example : ∃ s, lifeSys.exec lifeInit (strand 0) = some (s, strandEvs 0) ∧ ((strand 0).filter lifeOwn).length = 9 ∧
    ((strand 0).filter lifeBegin).length = 1 := by
  obtain ⟨s, h, -⟩ := strand_exec (n := 0) (s := lifeInit) (by constructor <;> simp [lifeInit, init])
  exact ⟨s, h, rfl, rfl⟩

/-- Everything of operation `c` is over. -/
def overOp (x : Op) : Bool :=
  x.cpc.isRet && (x.outer = .off || x.outer = .ended) && x.inner != .waiting && (x.mpc = .none || x.mpc = .done)

theorem quiet_of {h : List Ev} {s : Life} (hr : lifeSys.Run h s)
    (hc : ((List.range s.base.n).all fun c => overOp (s.base.op c)) = true) : Quiet s := by
  have hi := inv_run (life_run hr)
  have hc : ∀ c, overOp (s.base.op c) = true := by
    intro c
    by_cases hn : c < s.base.n
    · exact List.all_eq_true.1 hc c (List.mem_range.2 hn)
    · rw [hi.b.unused c (by omega)]; rfl
  have hb : ∀ a, s.base.busy a = none := by
    intro a
    cases hb : s.base.busy a with
    | none => rfl
    | some m =>
      have h1 := hi.q.busy a m hb
      have h2 := hc m
      simp only [overOp] at h2
      grind
  have hq : ∀ a, s.base.queue a = [] := by
    intro a
    cases hb : s.base.queue a with
    | nil => rfl
    | cons m r =>
      have h1 := hi.q.queue a m (by rw [hb]; simp)
      have h2 := hc m
      simp only [overOp] at h2
      grind
  intro a hm
  rcases a with b | x | x
  · cases b with
    | begin t k x g w =>
      cases t with
      | acc r =>
        have h1 := hc r
        simp only [overOp] at h1
        have : (s.base.op r).cpc ≠ .rpc := by intro h; rw [h] at h1; simp [CPc.isRet] at h1
        simp [lifeStep, step, ready, this]
      | _ => cases hm
    | go c r =>
      have h1 := hc c
      simp only [overOp] at h1
      cases hp : (s.base.op c).cpc <;> rw [hp] at h1 <;> simp_all [lifeStep, step, stepGo, CPc.isRet]
    | outer c b =>
      have h1 := hc c
      simp only [overOp] at h1
      cases hp : (s.base.op c).outer <;> rw [hp] at h1 <;> simp_all [lifeStep, step, stepOuter]
    | inner c =>
      have h1 := hc c
      simp only [overOp] at h1
      have : (s.base.op c).inner ≠ .waiting := by intro h; rw [h] at h1; simp at h1
      simp [lifeStep, step, this]
    | take a => simp [lifeStep, step, hq]
    | finish a => simp [lifeStep, step, hb]
    | release a => simp [lifeStep, step, hb]
    | expire c => cases hm
    | setErr w => cases hm
  · cases hm
  · cases hm

/-- A call whose message is handled: its goroutines end, and the message of a second call, to an actor that is shut, is refused. -/
def goodCall : List LifeAct :=
  [.op (.begin (.ext 0) .call 5 1 1), .op (.go 0 false), .op (.go 0 false), .op (.go 0 false), .op (.go 0 false),
    .op (.go 0 false), .op (.outer 0 false), .op (.take 5), .op (.finish 5), .op (.release 5), .op (.release 5), .op (.inner 0),
    .op (.outer 0 false), .op (.outer 0 false), .op (.go 0 false), .shut 5,
    .op (.begin (.ext 0) .call 5 1 1), .op (.go 1 true), .op (.outer 1 false), .op (.inner 1), .op (.outer 1 false),
    .op (.outer 1 false)]

example : ∃ h s, lifeSys.Run h s ∧ Quiet s ∧ (∀ a, s.dead a = false) ∧ .begin 0 (.ext 0) .call 1 ∈ h ∧ .handled 0 ∈ h ∧
    .ret 0 true false ∈ h ∧ .ret 1 false false ∈ h := by
  have he : lifeSys.exec lifeInit goodCall = some ((lifeSys.exec lifeInit goodCall).getD (lifeInit, [])) := rfl
  have hr := Lts.run_of_exec (M := lifeSys) he
  exact ⟨_, _, hr, quiet_of hr (by decide +kernel), fun a => rfl, by decide +kernel, by decide +kernel, by decide +kernel,
    by decide +kernel⟩

end Braid.CallTree
