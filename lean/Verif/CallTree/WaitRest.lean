import Verif.CallTree.WaitInv

/-
Where things are when nothing moves by itself.
-/
namespace Braid.CallTree
open Spec

theorem tot_pos {f : Op → Bool} {op : Nat → Op} {g : Nat} : ∀ {n : Nat}, tot f op g n ≠ 0 →
    ∃ c, c < n ∧ (op c).grp = g ∧ f (op c) = true
  | 0, h => absurd rfl h
  | n + 1, h => by
    simp only [tot] at h
    by_cases h1 : tot f op g n = 0
    · refine ⟨n, by omega, ?_⟩
      have : one f g (op n) ≠ 0 := by omega
      simp only [one] at this
      split at this
      · assumption
      · exact absurd rfl this
    · obtain ⟨c, h2, h3⟩ := tot_pos h1
      exact ⟨c, by omega, h3⟩

/-- In a mailbox or in the hands of the actor. -/
def MPc.isOpen : MPc → Bool
  | .queued | .handling => true
  | _ => false

theorem hold2_open {x : Op} (h : x.mpc.isOpen = true) : hold2 x = true := by
  cases hm : x.mpc <;> rw [hm] at h <;> first | (cases h; done) | (cases hp : x.cpc <;> simp [hold2, hm, hp])

theorem open_iff {h : List Ev} {s : State} (hr : sys.Run h s) (e : Nat) : Open h e ↔ (s.op e).mpc.isOpen = true := by
  have he := invE_run hr
  have hl := invL_run hr
  have h1 := he.accepted e
  have h2 := he.handled e
  have h3 := he.over e
  have h4 := hl.acc e
  cases hm : (s.op e).mpc <;> simp_all [Open, MPc.isIn, MPc.over, MPc.isOpen]

theorem pending_iff {h : List Ev} {s : State} (hr : sys.Run h s) (d : Nat) :
    Pending h d ↔ d < s.n ∧ (s.op d).cpc.isRet = false := by
  have he := invE_run hr
  have hl := invL_run hr
  constructor
  · rintro ⟨⟨t, k, g, hb⟩, hn⟩
    refine ⟨he.lt _ _ _ _ hb, ?_⟩
    cases hc : (s.op d).cpc.isRet with
    | false => rfl
    | true =>
      obtain ⟨ok, e, h1⟩ := hl.ret d (he.lt _ _ _ _ hb) hc
      exact absurd h1 (hn ok e)
  · rintro ⟨hn, hc⟩
    refine ⟨⟨_, _, _, hl.begun d hn⟩, fun ok e h1 => ?_⟩
    rw [he.ret d ok e h1] at hc
    cases hc

/-- The operations that have not returned, when nothing moves by itself. -/
theorem rest_op {h : List Ev} {s : State} (hr : sys.Run h s) (ha : AtRest s) {c : Nat} (hn : c < s.n)
    (hc : (s.op c).cpc.isRet = false) :
    (s.op c).cpc = .wait ∧ (s.op c).root = true ∧ (s.op c).outer = .sel ∧ (s.op c).inner = .waiting ∧
        s.wg (s.op c).grp ≠ 0 ∨
      (s.op c).cpc = .rpc ∧ s.rpc c = .running ∧ ∃ d, s.cur (.acc c) = some d := by
  have hi := inv_run hr
  have hl := invL_run hr
  have hgo : stepGo s c false = none := by
    have := ha (.go c false) rfl
    simpa [step, hn] using this
  cases hp : (s.op c).cpc with
  | returned ok => rw [hp] at hc; cases hc
  | recv => simp [stepGo, hp] at hgo
  | add1 => simp [stepGo, hp] at hgo
  | add2 => simp [stepGo, hp] at hgo
  | push =>
    simp only [stepGo, hp] at hgo
    split at hgo <;> cases hgo
  | ready => simp [stepGo, hp] at hgo
  | wait =>
    left
    have h1 := (hi.ok c).late (by rw [hp]; rfl)
    have h2 := hl.wait c hp
    have h3 := hl.outer c h1.2
    have hout : stepOuter s c false = none := by
      have := ha (.outer c false) rfl
      simpa [step, hn] using this
    have hinn : ¬ ((s.op c).inner = .waiting ∧ s.wg (s.op c).grp = 0) := by
      have := ha (.inner c) rfl
      simpa [step, hn] using this
    have h4 := hl.inner c
    cases ho : (s.op c).outer with
    | off => exact absurd ho h3
    | blocked => simp [stepOuter, ho, h2] at hout
    | close => simp [stepOuter, ho] at hout
    | ended => simp [stepGo, hp, ho] at hgo
    | sel =>
      cases hin : (s.op c).inner with
      | off => exact absurd hin (h4 ho)
      | closed => simp [stepOuter, ho, hin] at hout
      | waiting => exact ⟨rfl, h1.2, rfl, rfl, fun h5 => hinn ⟨hin, h5⟩⟩
  | rpc =>
    right
    refine ⟨rfl, ?_⟩
    cases hq : s.rpc c with
    | answered => simp [stepGo, hp, hq] at hgo
    | running => exact ⟨rfl, hl.run c hq⟩
    | idle =>
      exfalso
      have h1 : s.cur (.acc c) = none := by
        cases h2 : s.cur (.acc c) with
        | none => rfl
        | some d => exact absurd hq (hi.h.acc d c (hi.b.curLt _ _ h2) (hi.b.curThr _ _ h2))
      have := ha (.begin (.acc c) .call 0 0 0) rfl
      simp [step, h1, ready, hp, hq] at this

/-- The mailboxes, when nothing moves by itself. -/
theorem rest_msg {h : List Ev} {s : State} (hr : sys.Run h s) (ha : AtRest s) {e : Nat}
    (he : (s.op e).mpc ≠ .none) (hd : (s.op e).mpc ≠ .done) :
    (s.op e).mpc.isOpen = true ∧ ∃ m d, s.busy (s.op e).act = some m ∧ (s.op m).mpc = .handling ∧
      s.cur (.hnd m) = some d := by
  have hi := inv_run hr
  have hl := invL_run hr
  have hb : ∀ a m, s.busy a = some m → (s.op m).mpc = .handling ∧ ∃ d, s.cur (.hnd m) = some d := by
    intro a m hb
    have h1 := ha (.finish a) rfl
    have h2 := ha (.release a) rfl
    simp only [step, hb] at h1 h2
    rcases hi.q.busy a m hb with h3 | h3 | h3
    · refine ⟨h3, ?_⟩
      cases h4 : s.cur (.hnd m) with
      | some d => exact ⟨d, rfl⟩
      | none => simp [h3, h4] at h1
    · simp [h3] at h2
    · simp [h3] at h2
  have hq : (s.op e).mpc = .handling ∨ (s.op e).mpc = .rel1 ∨ (s.op e).mpc = .rel2 → (s.op e).mpc.isOpen = true ∧
      ∃ m d, s.busy (s.op e).act = some m ∧ (s.op m).mpc = .handling ∧ s.cur (.hnd m) = some d := by
    intro h1
    have h2 := hl.busy e h1
    obtain ⟨h3, d, h4⟩ := hb _ _ h2
    exact ⟨by rw [h3]; rfl, e, d, h2, h3, h4⟩
  cases hm : (s.op e).mpc with
  | none => exact absurd hm he
  | done => exact absurd hm hd
  | handling => have h1 := hq (.inl hm); rw [hm] at h1; exact h1
  | rel1 => have h1 := hq (.inr (.inl hm)); rw [hm] at h1; exact h1
  | rel2 => have h1 := hq (.inr (.inr hm)); rw [hm] at h1; exact h1
  | queued =>
    refine ⟨rfl, ?_⟩
    have h1 := hl.queued e hm
    have h2 := ha (.take (s.op e).act) rfl
    cases h3 : s.busy (s.op e).act with
    | some m =>
      obtain ⟨h4, d, h5⟩ := hb _ _ h3
      exact ⟨m, d, rfl, h4, h5⟩
    | none =>
      cases h4 : s.queue (s.op e).act with
      | nil => rw [h4] at h1; cases h1
      | cons x r => simp [step, h3, h4] at h2

/-- A waiting root call has a message of its group that is open. -/
theorem rest_group {h : List Ev} {s : State} (hr : sys.Run h s) (ha : AtRest s) {g : Nat} (hg : s.wg g ≠ 0) :
    ∃ e, e < s.n ∧ (s.op e).grp = g ∧ (s.op e).mpc.isOpen = true := by
  have hc := invC_run hr
  have h1 : tot hold2 s.op g s.n ≠ 0 := by
    intro h1
    rw [hc.wg g, h1] at hg
    exact hg rfl
  obtain ⟨e, h2, h3, h4⟩ := tot_pos h1
  refine ⟨e, h2, h3, ?_⟩
  have h5 : (s.op e).cpc ≠ .push := by
    intro h5
    rcases rest_op hr ha h2 (by rw [h5]; rfl) with ⟨h6, -⟩ | ⟨h6, -⟩ <;> rw [h5] at h6 <;> cases h6
  have h6 : (s.op e).mpc ≠ .none ∧ (s.op e).mpc ≠ .done := by
    simp only [hold2] at h4
    cases hp : (s.op e).cpc <;> cases hm : (s.op e).mpc <;> simp_all
  exact (rest_msg hr ha h6.1 h6.2).1

/-- What a pending operation waits for. -/
theorem rest_for {h : List Ev} {s : State} (hr : sys.Run h s) (ha : AtRest s) : ∀ (k c : Nat), s.n - c ≤ k → c < s.n →
    (s.op c).cpc.isRet = false → ∃ e, For h c e ∧ (s.op e).mpc.isOpen = true
  | 0, c, hk, hn, _ => absurd hn (by omega)
  | k + 1, c, hk, hn, hc => by
    have hi := inv_run hr
    have hl := invL_run hr
    rcases rest_op hr ha hn hc with ⟨-, h2, -, -, h5⟩ | ⟨-, -, d, h3⟩
    · obtain ⟨e, h6, h7, h8⟩ := rest_group hr ha h5
      exact ⟨e, .group (hl.begun c hn) (hl.root c h2) (h7 ▸ hl.begun e h6), h8⟩
    · have h4 := hi.b.curLt _ _ h3
      have h5 := hi.b.curThr _ _ h3
      have h6 := hl.accLt d c h4 h5
      obtain ⟨e, h7, h8⟩ := rest_for hr ha k d (by omega) h4 (hi.b.curRet _ _ h3)
      exact ⟨e, .remote (h5 ▸ hl.begun d h4) h7, h8⟩

theorem open_lt {h : List Ev} {s : State} (hr : sys.Run h s) {e : Nat} (h1 : (s.op e).mpc.isOpen = true) : e < s.n := by
  apply Nat.lt_of_not_le
  intro h2
  rw [(inv_run hr).b.unused e h2] at h1
  cases h1

/-- The actor of an open message is waiting for the actor of an open message. -/
theorem rest_stuck {h : List Ev} {s : State} (hr : sys.Run h s) (ha : AtRest s) {e : Nat}
    (he : (s.op e).mpc.isOpen = true) :
    ∃ e', (s.op e').mpc.isOpen = true ∧ Stuck h (fun c => (s.op c).act) (s.op e).act (s.op e').act := by
  have hi := inv_run hr
  have hl := invL_run hr
  obtain ⟨-, m, d, h1, h2, h3⟩ := rest_msg hr ha (e := e) (by intro h; rw [h] at he; cases he)
    (by intro h; rw [h] at he; cases he)
  have h4 := hi.b.curLt _ _ h3
  have h5 := hi.b.curThr _ _ h3
  have h6 := hi.b.curRet _ _ h3
  obtain ⟨e', h7, h8⟩ := rest_for hr ha _ d (Nat.le_refl _) h4 h6
  exact ⟨e', h8, m, d, e', _, _, hi.q.busyAct _ _ h1, (open_iff hr m).2 (by rw [h2]; rfl), h5 ▸ hl.begun d h4,
    (pending_iff hr d).2 ⟨h4, h6⟩, h7, (open_iff hr e').2 h8, rfl⟩

theorem chain_snoc {h : List Ev} {act : Nat → Nat} {a b c : Nat} (h1 : Chain h act a b) (h2 : Stuck h act b c) :
    Chain h act a c := by
  induction h1 with
  | one h3 => exact .more h3 (.one h2)
  | more h3 _ ih => exact .more h3 (ih h2)

theorem chain_trans {h : List Ev} {act : Nat → Nat} {a b c : Nat} (h1 : Chain h act a b) (h2 : Chain h act b c) :
    Chain h act a c := by
  induction h1 with
  | one h3 => exact .more h3 h2
  | more h3 _ ih => exact .more h3 (ih h2)

/-- Who can always go on within a finite set comes round. -/
theorem lasso {h : List Ev} {act : Nat → Nat} : ∀ (k : Nat) (L : List Nat), L.length ≤ k →
    (∀ x ∈ L, ∃ y ∈ L, Stuck h act x y) → ∀ x ∈ L, ∃ b, (x = b ∨ Chain h act x b) ∧ Chain h act b b
  | 0, L, hk, _, x, hx => by
    cases L with
    | nil => cases hx
    | cons a r => simp at hk
  | k + 1, L, hk, hL, x, hx => by
    classical
    by_cases hc : Chain h act x x
    · exact ⟨x, .inl rfl, hc⟩
    · obtain ⟨y, hy, hxy⟩ := hL x hx
      have hlt : (L.filter fun z => decide (Chain h act x z)).length < L.length := by
        rcases Nat.lt_or_ge (L.filter fun z => decide (Chain h act x z)).length L.length with h1 | h1
        · exact h1
        · have h2 := List.Sublist.eq_of_length_le List.filter_sublist h1
          have h3 := (List.mem_filter.1 (h2.symm ▸ hx : x ∈ L.filter fun z => decide (Chain h act x z))).2
          exact absurd (of_decide_eq_true h3) hc
      obtain ⟨b, h1, h2⟩ := lasso k (L.filter fun z => decide (Chain h act x z)) (by omega)
        (fun z hz => by
          obtain ⟨h3, h4⟩ := List.mem_filter.1 hz
          obtain ⟨w, h5, h6⟩ := hL z h3
          exact ⟨w, List.mem_filter.2 ⟨h5, decide_eq_true (chain_snoc (of_decide_eq_true h4) h6)⟩, h6⟩)
        y (List.mem_filter.2 ⟨hy, decide_eq_true (.one hxy)⟩)
      refine ⟨b, .inr ?_, h2⟩
      rcases h1 with rfl | h1
      · exact .one hxy
      · exact .more hxy h1

/-- From an open message a circle is reached. -/
theorem rest_circle {h : List Ev} {s : State} (hr : sys.Run h s) (ha : AtRest s) {e : Nat}
    (he : (s.op e).mpc.isOpen = true) :
    ∃ b, ((s.op e).act = b ∨ Chain h (fun c => (s.op c).act) (s.op e).act b) ∧ Chain h (fun c => (s.op c).act) b b := by
  refine lasso _ (((List.range s.n).filter fun c => (s.op c).mpc.isOpen).map fun c => (s.op c).act) (Nat.le_refl _) ?_ _
    (List.mem_map.2 ⟨e, List.mem_filter.2 ⟨List.mem_range.2 (open_lt hr he), he⟩, rfl⟩)
  intro x hx
  obtain ⟨c, hc, rfl⟩ := List.mem_map.1 hx
  obtain ⟨e', h1, h2⟩ := rest_stuck hr ha (List.mem_filter.1 hc).2
  exact ⟨_, List.mem_map.2 ⟨e', List.mem_filter.2 ⟨List.mem_range.2 (open_lt hr h1), h1⟩, rfl⟩, h2⟩

/-! ### Everything that waits stays as it is -/

/-- What waits in `s0` is the same in `s`. -/
structure Frozen (s0 s : State) : Prop where
  le : s0.n ≤ s.n
  op : ∀ c, c < s0.n → (s0.op c).cpc.isRet = false → (s.op c).cpc = (s0.op c).cpc ∧
    (s.op c).outer = (s0.op c).outer ∧ (s.op c).inner = (s0.op c).inner ∧ (s.op c).root = (s0.op c).root
  same : ∀ c, c < s0.n → (s.op c).grp = (s0.op c).grp ∧ (s.op c).act = (s0.op c).act ∧ (s.op c).thr = (s0.op c).thr
  msg : ∀ c, c < s0.n → (s0.op c).mpc.isOpen = true → (s.op c).mpc = (s0.op c).mpc
  busy : ∀ a m, s0.busy a = some m → s.busy a = some m
  rpc : ∀ c, c < s0.n → s0.rpc c = .running → (s0.op c).cpc = .rpc → s.rpc c = .running
  ret : ∀ c, c < s0.n → (s0.op c).cpc.isRet = true → (s.op c).cpc.isRet = true

theorem frozen_refl (s : State) : Frozen s s :=
  ⟨Nat.le_refl _, fun _ _ _ => ⟨rfl, rfl, rfl, rfl⟩, fun _ _ => ⟨rfl, rfl, rfl⟩, fun _ _ _ => rfl, fun _ _ h => h,
    fun _ _ h _ => h, fun _ _ h => h⟩

section
variable {h0 h : List Ev} {s0 s : State}

/-- A call that waits cannot go on. -/
theorem frozen_op (hr0 : sys.Run h0 s0) (ha : AtRest s0) (hr : sys.Run h s) (hf : Frozen s0 s) {c : Nat}
    (hn : c < s0.n) (hc : (s0.op c).cpc.isRet = false) :
    (s.op c).cpc = .wait ∧ (s.op c).outer = .sel ∧ (s.op c).inner = .waiting ∧ s.wg (s.op c).grp ≠ 0 ∨
      (s.op c).cpc = .rpc ∧ s.rpc c = .running ∧
        ∃ d, d < s0.n ∧ (s0.op d).cpc.isRet = false ∧ s.cur (.acc c) = some d := by
  obtain ⟨f1, f2, f3, -⟩ := hf.op c hn hc
  rcases rest_op hr0 ha hn hc with ⟨h1, h2, h3, h4, h5⟩ | ⟨h1, h2, d, h3⟩
  · refine .inl ⟨f1.trans h1, f2.trans h3, f3.trans h4, ?_⟩
    obtain ⟨e, h6, h7, h8⟩ := rest_group hr0 ha h5
    intro h9
    rw [(invC_run hr).wg] at h9
    have h10 := tot_zero (Int.ofNat.inj h9) e (Nat.lt_of_lt_of_le h6 hf.le)
      (by rw [(hf.same e h6).1, (hf.same c hn).1, h7])
    have h11 := hf.msg e h6 h8
    rw [← h11] at h8
    rw [hold2_open h8] at h10
    cases h10
  · refine .inr ⟨f1.trans h1, hf.rpc c hn h2 h1, d, ?_⟩
    have hi0 := inv_run hr0
    have h4 := hi0.b.curLt _ _ h3
    have h5 := hi0.b.curRet _ _ h3
    refine ⟨h4, h5, ?_⟩
    have h6 := (inv_run hr).b.curOf d (Nat.lt_of_lt_of_le h4 hf.le) (by rw [(hf.op d h4 h5).1]; exact h5)
    rwa [(hf.same d h4).2.2, hi0.b.curThr _ _ h3] at h6

/-- The actor of a message that waits cannot go on. -/
theorem frozen_msg (hr0 : sys.Run h0 s0) (ha : AtRest s0) (hr : sys.Run h s) (hf : Frozen s0 s) {e : Nat}
    (he : (s0.op e).mpc.isOpen = true) :
    ∃ m d, m < s0.n ∧ s0.busy (s0.op e).act = some m ∧ s.busy (s.op e).act = some m ∧ (s.op m).mpc = .handling ∧
      (s0.op m).mpc = .handling ∧ s.cur (.hnd m) = some d := by
  have hi0 := inv_run hr0
  obtain ⟨-, m, d, h1, h2, h3⟩ := rest_msg hr0 ha (e := e) (by intro h; rw [h] at he; cases he)
    (by intro h; rw [h] at he; cases he)
  have hm := open_lt hr0 (e := m) (by rw [h2]; rfl)
  have h4 := hi0.b.curLt _ _ h3
  have h5 := hi0.b.curRet _ _ h3
  have h6 := (inv_run hr).b.curOf d (Nat.lt_of_lt_of_le h4 hf.le) (by rw [(hf.op d h4 h5).1]; exact h5)
  rw [(hf.same d h4).2.2, hi0.b.curThr _ _ h3] at h6
  refine ⟨m, d, hm, h1, ?_, ?_, h2, h6⟩
  · rw [(hf.same e (open_lt hr0 he)).2.1]; exact hf.busy _ _ h1
  · rw [hf.msg m hm (by rw [h2]; rfl), h2]

/-- The actors that are busy are so with a handler that waits. -/
theorem frozen_busy (hr0 : sys.Run h0 s0) (ha : AtRest s0) (hr : sys.Run h s) (hf : Frozen s0 s) {a m : Nat}
    (hb : s0.busy a = some m) : s.busy a = some m ∧ (s.op m).mpc = .handling ∧ ∃ d, s.cur (.hnd m) = some d := by
  have hi0 := inv_run hr0
  have h1 : (s0.op m).mpc ≠ .none ∧ (s0.op m).mpc ≠ .done := by
    rcases hi0.q.busy a m hb with h | h | h <;> rw [h] <;> exact ⟨by simp, by simp⟩
  have h2 := hi0.q.busyAct a m hb
  obtain ⟨m', d, -, h4, h5, h6, -, h8⟩ := frozen_msg hr0 ha hr hf (rest_msg hr0 ha h1.1 h1.2).1
  rw [h2, hb] at h4
  cases h4
  exact ⟨hf.busy _ _ hb, h6, d, h8⟩

set_option maxHeartbeats 1000000 in
theorem frozen_step (hr0 : sys.Run h0 s0) (ha : AtRest s0) (hr : sys.Run h s) (hf : Frozen s0 s) {a : Act} {s' : State}
    {evs : List Ev} (hs : step s a = some (s', evs))
    (hq : ∀ d, d < s0.n → (s0.op d).cpc.isRet = false → .timeout d ∉ evs ∧ .expired d ∉ evs) : Frozen s0 s' := by
  have ko := @frozen_op h0 h s0 s hr0 ha hr hf
  have km := @frozen_msg h0 h s0 s hr0 ha hr hf
  have kb := @frozen_busy h0 h s0 s hr0 ha hr hf
  have hi := inv_run hr
  obtain ⟨f1, f2, f3, f4, f5, f6, f7⟩ := hf
  cases a with
  | begin t k a g w =>
    simp only [step] at hs
    split at hs
    case isFalse => cases hs
    cases hs
    constructor <;> grind [upd_apply, startRpc_apply]
  | go c r =>
    have hc : (s.op c).cpc.isRet = false ∧ c < s.n ∧ (c < s0.n → (s0.op c).cpc.isRet = true) := by
      clear f1 f2 f3 f4 f5 f6 f7 kb km
      have hk := @ko c
      clear ko
      refine ⟨?_, ?_, ?_⟩
      · ct_cases hs <;> simp_all [CPc.isRet]
      · ct_cases hs <;> assumption
      · intro h1
        cases h2 : (s0.op c).cpc.isRet with
        | true => rfl
        | false =>
          exfalso
          rcases hk h1 h2 with ⟨h3, h4, -⟩ | ⟨h3, h4, -⟩ <;> simp [step, stepGo, h3, h4] at hs
    have hc' : s0.n ≤ c := by grind
    have b1 := hi.b.curOf c hc.2.1 hc.1
    ct_cases hs <;> constructor <;> grind [upd_apply, endRpc_apply, CPc.isRet]
  | expire c =>
    have hc : (s.op c).cpc.isRet = false ∧ c < s.n ∧ (c < s0.n → (s0.op c).cpc.isRet = true) := by
      clear f1 f2 f3 f4 f5 f6 f7 kb km
      have hk := hq c
      clear ko hq
      refine ⟨?_, ?_, ?_⟩
      · ct_cases hs <;> simp_all [CPc.isRet]
      · ct_cases hs <;> assumption
      · intro h1
        cases h2 : (s0.op c).cpc.isRet with
        | true => rfl
        | false =>
          exfalso
          refine (hk h1 h2).2 ?_
          ct_cases hs <;> simp
    have hc' : s0.n ≤ c := by grind
    have b1 := hi.b.curOf c hc.2.1 hc.1
    ct_cases hs <;> constructor <;> grind [upd_apply, endRpc_apply, CPc.isRet]
  | outer c b =>
    have hoff : (s.op c).cpc = .rpc → (s.op c).outer = .off ∧ (s.op c).inner = .off := by
      intro h1
      have h2 := (hi.ok c).notRoot ((hi.ok c).remote ((hi.ok c).rpc h1)).2
      exact ⟨h2, (hi.ok c).blocked (by rw [h2]; rfl)⟩
    ct_cases hs <;> constructor <;> grind [upd_apply]
  | inner c =>
    have hoff : (s.op c).cpc = .rpc → (s.op c).outer = .off ∧ (s.op c).inner = .off := by
      intro h1
      have h2 := (hi.ok c).notRoot ((hi.ok c).remote ((hi.ok c).rpc h1)).2
      exact ⟨h2, (hi.ok c).blocked (by rw [h2]; rfl)⟩
    ct_cases hs <;> constructor <;> grind [upd_apply]
  | take a =>
    have q2 := hi.q.queueAct a
    ct_cases hs <;> constructor <;> grind [upd_apply]
  | finish a =>
    have q3 := hi.q.busyAct a
    ct_cases hs <;> constructor <;> grind [upd_apply, MPc.isOpen]
  | release a =>
    have q3 := hi.q.busyAct a
    ct_cases hs <;> constructor <;> grind [upd_apply, MPc.isOpen]
  | setErr w => ct_cases hs; exact ⟨f1, f2, f3, f4, f5, f6, f7⟩

end

end Braid.CallTree
