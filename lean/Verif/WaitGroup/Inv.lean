import Verif.WaitGroup.Spec

/-
Invariants of the wait group wrapper (helper lemmas).
-/
namespace Braid.WaitGroup

theorem wrap_add (a b : Int) : wrap (wrap a + b) = wrap (a + b) := by unfold wrap; exact Int.bmod_add_bmod

theorem wrap_small {x : Int} (h1 : -2147483648 ≤ x) (h2 : x < 2147483648) : wrap x = x := by
  unfold wrap; exact Int.bmod_eq_of_le (by omega) (by omega)

theorem called_append (a b : List Ev) : called (a ++ b) = called a + called b := by
  induction a with
  | nil => simp [called]
  | cons e a ih => cases e <;> simp [called, ih] <;> omega

theorem effect_append (a b : List Ev) : effect (a ++ b) = effect a + effect b := by
  induction a with
  | nil => simp [effect]
  | cons e a ih => cases e <;> simp [effect, ih] <;> omega

theorem waitCalls_append (a b : List Ev) : waitCalls (a ++ b) = waitCalls a + waitCalls b := by simp [waitCalls]
theorem waitRets_append (a b : List Ev) : waitRets (a ++ b) = waitRets a + waitRets b := by simp [waitRets]
theorem busy_append (p : Nat) (a b : List Ev) : busy p (a ++ b) = b.foldl (track p) (busy p a) := by
  simp [busy]

/-- What a call has yet to add to `counter`. -/
def pend : Pc → Int
  | .add1 d => d
  | _ => 0

def psum (f : Nat → Pc) : Nat → Int
  | 0 => 0
  | n + 1 => psum f n + pend (f n)

theorem psum_upd_ge (f : Nat → Pc) (n i : Nat) (v : Pc) (h : n ≤ i) : psum (upd f i v) n = psum f n := by
  induction n with
  | zero => rfl
  | succ n ih => simp only [psum]; rw [ih (by omega), upd_of_ne _ _ (by omega)]

theorem psum_upd (f : Nat → Pc) (n i : Nat) (v : Pc) (h : i < n) :
    psum (upd f i v) n = psum f n - pend (f i) + pend v := by
  induction n with
  | zero => omega
  | succ n ih =>
    simp only [psum]
    by_cases hi : i = n
    · subst hi; rw [psum_upd_ge _ _ _ _ (Nat.le_refl _), upd_same]; omega
    · rw [ih (by omega), upd_of_ne _ _ (Ne.symm hi)]; omega

def inAdd : Pc → Bool
  | .add1 _ | .add2 _ | .chk _ => true
  | _ => false

def inWait : Pc → Bool
  | .wait | .parked | .woke => true
  | _ => false

def isParked : Pc → Bool
  | .parked => true
  | _ => false

structure Inv (n : Nat) (h : List Ev) (s : State) : Prop where
  out : ∀ p, n ≤ p → s.pc p = .idle
  v : s.v = wrap (effect h)
  counter : s.counter = wrap (called h - psum s.pc n)
  busy : ∀ p, busy p h = inAdd (s.pc p)
  waits : waitCalls h = waitRets h + cnt s.pc n inWait
  parked : s.crashed = false → cnt s.pc n isParked = s.w + s.sem

theorem psum_idle (n : Nat) : psum (fun _ => .idle) n = 0 := by
  induction n with
  | zero => rfl
  | succ n ih => simp [psum, ih, pend]

theorem cnt_idle (n : Nat) (p : Pc → Bool) (h : p .idle = false) : cnt (fun _ => Pc.idle) n p = 0 := by
  induction n with
  | zero => exact cnt_zero _ _
  | succ n ih => rw [cnt_succ, ih]; simp [h]

theorem inv_init (n : Nat) : Inv n [] init := by
  refine ⟨fun _ _ => rfl, rfl, ?_, fun _ => rfl, ?_, fun _ => ?_⟩
  · simp [init, called, psum_idle, wrap]
  · have := cnt_idle n inWait rfl
    simp only [waitCalls, waitRets, List.countP_nil, init]; omega
  · exact cnt_idle n isParked rfl

/-- A goroutine moves on. -/
theorem Inv.move {n : Nat} {h : List Ev} {s s' : State} {evs : List Ev} {p : Nat} {x : Pc} (i : Inv n h s)
    (hp : p < n) (h1 : s'.pc = upd s.pc p x)
    (hv : s'.v = wrap (effect h + effect evs))
    (hc : s'.counter = wrap (called h + called evs - (psum s.pc n - pend (s.pc p) + pend x)))
    (hb : ∀ q, evs.foldl (track q) (inAdd (s.pc q)) = inAdd (upd s.pc p x q))
    (hw : waitCalls evs + (if inWait (s.pc p) then 1 else 0) = waitRets evs + if inWait x then 1 else 0)
    (hk : s'.crashed = false → s.crashed = false ∧
      s'.w + s'.sem + (if isParked (s.pc p) then 1 else 0) = s.w + s.sem + if isParked x then 1 else 0) :
    Inv n (h ++ evs) s' := by
  obtain ⟨a1, a2, a3, a4, a5, a6⟩ := i
  have c1 := cnt_upd s.pc n p x inWait hp
  have c2 := cnt_upd s.pc n p x isParked hp
  constructor
  · intro q hq; rw [h1, upd_of_ne _ _ (by omega)]; exact a1 q hq
  · rw [hv, effect_append]
  · rw [hc, called_append, h1, psum_upd _ _ _ _ hp]
  · intro q; rw [busy_append, a4 q, hb q, h1]
  · rw [waitCalls_append, waitRets_append, h1]; omega
  · intro hc
    obtain ⟨k1, k2⟩ := hk hc
    have := a6 k1
    rw [h1]; omega

theorem track_move (pc : Nat → Pc) (p q : Nat) (x : Pc) (evs : List Ev)
    (h1 : ∀ q, q ≠ p → ∀ b, evs.foldl (track q) b = b) (h2 : ∀ b, inAdd (pc p) = b → evs.foldl (track p) b = inAdd x) :
    evs.foldl (track q) (inAdd (pc q)) = inAdd (upd pc p x q) := by
  by_cases h : q = p
  · subst h; rw [upd_same]; exact h2 _ rfl
  · rw [h1 q h, upd_of_ne _ _ h]

theorem inv_step {n : Nat} {h : List Ev} {s s' : State} {a : Act} {evs : List Ev} (i : Inv n h s)
    (hs : step n s a = some (s', evs)) : Inv n (h ++ evs) s' := by
  have hlt : ∀ p, s.pc p ≠ .idle → p < n := by
    intro p hp
    rcases Nat.lt_or_ge p n with h' | h'
    · exact h'
    · exact absurd (i.out p h') hp
  unfold step at hs
  split at hs
  · cases hs
  rename_i hcr
  have hcr : s.crashed = false := by simpa using hcr
  split at hs
  · rename_i p d
    split at hs
    · rename_i hp
      simp only [Option.some.injEq, Prod.mk.injEq] at hs; obtain ⟨rfl, rfl⟩ := hs
      refine i.move hp.1 rfl ?_ ?_ ?_ ?_ ?_
      · simp [effect, i.v]
      · simp only [called, hp.2, pend]; rw [i.counter]; congr 1; omega
      · intro q; exact track_move _ _ _ _ _ (by intro q hq b; simp [track, Ne.symm hq]) (by simp [track, inAdd])
      · simp [waitCalls, waitRets, hp.2, inWait]
      · simp [hcr, hp.2, isParked]
    · cases hs
  · rename_i p
    split at hs
    · rename_i hp
      simp only [Option.some.injEq, Prod.mk.injEq] at hs; obtain ⟨rfl, rfl⟩ := hs
      refine i.move hp.1 rfl ?_ ?_ ?_ ?_ ?_
      · simp [effect, i.v]
      · simp only [called, hp.2, pend]; rw [i.counter]; congr 1; omega
      · intro q; exact track_move _ _ _ _ _ (by simp [track]) (by simp [track, inAdd, hp.2])
      · simp [waitCalls, waitRets, hp.2, inWait]
      · simp [hcr, hp.2, isParked]
    · cases hs
  · rename_i p
    split at hs
    · simp only [Option.some.injEq, Prod.mk.injEq] at hs; obtain ⟨rfl, rfl⟩ := hs
      obtain ⟨a1, a2, a3, a4, a5, a6⟩ := i
      refine ⟨a1, ?_, ?_, ?_, ?_, a6⟩
      · rw [effect_append]; simpa [effect] using a2
      · rw [called_append]; simpa [called] using a3
      · intro q; rw [busy_append]; simpa [track] using a4 q
      · rw [waitCalls_append, waitRets_append]; simpa [waitCalls, waitRets] using a5
    · cases hs
  · rename_i p
    unfold go at hs
    split at hs
    · cases hs
    · rename_i d hp
      simp only [Option.some.injEq, Prod.mk.injEq] at hs; obtain ⟨rfl, rfl⟩ := hs
      refine i.move (hlt p (by simp [hp])) rfl ?_ ?_ ?_ ?_ ?_
      · simp [effect, i.v]
      · simp only [called, hp, pend]; rw [i.counter, wrap_add]; congr 1; omega
      · intro q; exact track_move _ _ _ _ _ (by simp) (by simp [inAdd, hp])
      · simp [waitCalls, waitRets, hp, inWait]
      · simp [hcr, hp, isParked]
    · rename_i d hp
      have hv : wrap (s.v + d) = wrap (effect h + (d + 0)) := by rw [i.v, wrap_add]; congr 1; omega
      split at hs
      · simp only [Option.some.injEq, Prod.mk.injEq] at hs; obtain ⟨rfl, rfl⟩ := hs
        obtain ⟨a1, a2, a3, a4, a5, a6⟩ := i
        refine ⟨a1, ?_, ?_, ?_, ?_, by simp⟩
        · rw [effect_append]; exact hv
        · rw [called_append]; simpa [called] using a3
        · intro q; rw [busy_append]; simpa [track] using a4 q
        · rw [waitCalls_append, waitRets_append]; simpa [waitCalls, waitRets] using a5
      · split at hs
        · simp only [Option.some.injEq, Prod.mk.injEq] at hs; obtain ⟨rfl, rfl⟩ := hs
          refine i.move (hlt p (by simp [hp])) rfl hv ?_ ?_ ?_ ?_
          · simp only [called, hp, pend]; rw [i.counter]; congr 1; omega
          · intro q; exact track_move _ _ _ _ _ (by intro q hq b; simp [track, Ne.symm hq]) (by simp [track, inAdd])
          · simp [waitCalls, waitRets, hp, inWait]
          · simp [hcr, hp, isParked]
        · simp only [Option.some.injEq, Prod.mk.injEq] at hs; obtain ⟨rfl, rfl⟩ := hs
          refine i.move (hlt p (by simp [hp])) rfl hv ?_ ?_ ?_ ?_
          · simp only [called, hp, pend]; rw [i.counter]; congr 1; omega
          · intro q; exact track_move _ _ _ _ _ (by simp [track]) (by simp [track, inAdd, hp])
          · simp [waitCalls, waitRets, hp, inWait]
          · simp [hcr, hp, isParked]
    · rename_i w hp
      split at hs
      · rename_i hz
        simp only [Option.some.injEq, Prod.mk.injEq] at hs; obtain ⟨rfl, rfl⟩ := hs
        refine i.move (hlt p (by simp [hp])) rfl ?_ ?_ ?_ ?_ ?_
        · simp [effect, i.v]
        · simp only [called, hp, pend]; rw [i.counter]; congr 1; omega
        · intro q; exact track_move _ _ _ _ _ (by intro q hq b; simp [track, Ne.symm hq]) (by simp [track, inAdd])
        · simp [waitCalls, waitRets, hp, inWait]
        · simp [hcr, hp, isParked]; omega
      · simp only [Option.some.injEq, Prod.mk.injEq] at hs; obtain ⟨rfl, rfl⟩ := hs
        obtain ⟨a1, a2, a3, a4, a5, a6⟩ := i
        refine ⟨a1, ?_, ?_, ?_, ?_, by simp⟩
        · rw [effect_append]; simpa [effect] using a2
        · rw [called_append]; simpa [called] using a3
        · intro q; rw [busy_append]; simpa [track] using a4 q
        · rw [waitCalls_append, waitRets_append]; simpa [waitCalls, waitRets] using a5
    · rename_i hp
      split at hs <;> (simp only [Option.some.injEq, Prod.mk.injEq] at hs; obtain ⟨rfl, rfl⟩ := hs)
      · refine i.move (hlt p (by simp [hp])) rfl ?_ ?_ ?_ ?_ ?_
        · simp [effect, i.v]
        · simp only [called, hp, pend]; rw [i.counter]; congr 1; omega
        · intro q; exact track_move _ _ _ _ _ (by simp [track]) (by simp [track, inAdd, hp])
        · simp [waitCalls, waitRets, hp, inWait]
        · simp [hcr, hp, isParked]
      · refine i.move (hlt p (by simp [hp])) rfl ?_ ?_ ?_ ?_ ?_
        · simp [effect, i.v]
        · simp only [called, hp, pend]; rw [i.counter]; congr 1; omega
        · intro q; exact track_move _ _ _ _ _ (by simp) (by simp [inAdd, hp])
        · simp [waitCalls, waitRets, hp, inWait]
        · simp [hcr, hp, isParked]; omega
    · rename_i hp
      split at hs
      · cases hs
      · simp only [Option.some.injEq, Prod.mk.injEq] at hs; obtain ⟨rfl, rfl⟩ := hs
        refine i.move (hlt p (by simp [hp])) rfl ?_ ?_ ?_ ?_ ?_
        · simp [effect, i.v]
        · simp only [called, hp, pend]; rw [i.counter]; congr 1; omega
        · intro q; exact track_move _ _ _ _ _ (by simp) (by simp [inAdd, hp])
        · simp [waitCalls, waitRets, hp, inWait]
        · simp [hcr, hp, isParked]; omega
    · rename_i hp
      split at hs <;> (simp only [Option.some.injEq, Prod.mk.injEq] at hs; obtain ⟨rfl, rfl⟩ := hs)
      · refine i.move (hlt p (by simp [hp])) rfl ?_ ?_ ?_ ?_ ?_
        · simp [effect, i.v]
        · simp only [called, hp, pend]; rw [i.counter]; congr 1; omega
        · intro q; exact track_move _ _ _ _ _ (by simp [track]) (by simp [track, inAdd, hp])
        · simp [waitCalls, waitRets, hp, inWait]
        · simp [hcr, hp, isParked]
      · obtain ⟨a1, a2, a3, a4, a5, a6⟩ := i
        refine ⟨a1, ?_, ?_, ?_, ?_, by simp⟩
        · rw [effect_append]; simpa [effect] using a2
        · rw [called_append]; simpa [called] using a3
        · intro q; rw [busy_append]; simpa [track] using a4 q
        · rw [waitCalls_append, waitRets_append]; simpa [waitCalls, waitRets] using a5

theorem inv_run {n : Nat} {h : List Ev} {s : State} (hr : (sys n).Run h s) : Inv n h s :=
  Lts.Run.invariant (P := Inv n) (inv_init n) (fun _ _ _ _ _ _ hi hs => inv_step hi hs) hr

theorem cnt_mono {β : Type} (f : Nat → β) (n : Nat) (p q : β → Bool) (h : ∀ b, p b = true → q b = true) :
    cnt f n p ≤ cnt f n q := by
  induction n with
  | zero => simp [cnt_zero]
  | succ n ih =>
    rw [cnt_succ, cnt_succ]
    have := h (f n)
    by_cases h1 : p (f n) = true
    · simp only [h1, this h1, if_true]; omega
    · simp only [h1, Bool.false_eq_true, if_false]; omega

/-- What holds as long as the wait group is used as documented. -/
structure Disc (h : List Ev) (s : State) : Prop where
  alive : s.crashed = false
  range : 0 ≤ effect h ∧ effect h < 2147483648
  chk : ∀ p w, s.pc p = .chk w → s.v = 0 ∧ s.w = w ∧ 0 < w
  one : ∀ p q w w', s.pc p = .chk w → s.pc q = .chk w' → p = q
  free : 0 < s.sem → s.v = 0 ∧ s.w = 0
  woke : ∀ p, s.pc p = .woke → s.v = 0 ∧ s.w = 0

theorem Disc.v {n : Nat} {h : List Ev} {s : State} (i : Inv n h s) (d : Disc h s) : s.v = effect h := by
  rw [i.v]; exact wrap_small (by have := d.range; omega) d.range.2

theorem disc_step {n : Nat} {h : List Ev} {s s' : State} {a : Act} {evs : List Ev} (i : Inv n h s) (d : Disc h s)
    (hd : Disciplined (h ++ evs)) (hs : step n s a = some (s', evs)) : Disc (h ++ evs) s' := by
  have hv := d.v i
  have hpk := i.parked d.alive
  have hw := i.waits
  have hlt : ∀ p, s.pc p ≠ .idle → p < n := by
    intro p hp
    rcases Nat.lt_or_ge p n with h' | h'
    · exact h'
    · exact absurd (i.out p h') hp
  have hpw : cnt s.pc n isParked ≤ cnt s.pc n inWait := cnt_mono _ _ _ _ (by intro b; cases b <;> simp [isParked, inWait])
  obtain ⟨b1, b2, b3, b4, b5, b6⟩ := d
  unfold step at hs
  simp only [b1, Bool.false_eq_true, if_false] at hs
  split at hs
  · split at hs
    · rename_i p x hp
      simp only [Option.some.injEq, Prod.mk.injEq] at hs; obtain ⟨rfl, rfl⟩ := hs
      refine ⟨by first | exact b1 | rfl, by simpa [effect_append, effect] using b2, ?_, ?_, b5, ?_⟩ <;> simp only [upd_apply] <;> grind
    · cases hs
  · split at hs
    · rename_i p hp
      simp only [Option.some.injEq, Prod.mk.injEq] at hs; obtain ⟨rfl, rfl⟩ := hs
      refine ⟨by first | exact b1 | rfl, by simpa [effect_append, effect] using b2, ?_, ?_, b5, ?_⟩ <;> simp only [upd_apply] <;> grind
    · cases hs
  · split at hs
    · simp only [Option.some.injEq, Prod.mk.injEq] at hs; obtain ⟨rfl, rfl⟩ := hs
      exact ⟨b1, by simpa [effect_append, effect] using b2, b3, b4, b5, b6⟩
    · cases hs
  · rename_i p
    unfold go at hs
    split at hs
    · cases hs
    · simp only [Option.some.injEq, Prod.mk.injEq] at hs; obtain ⟨rfl, rfl⟩ := hs
      refine ⟨by first | exact b1 | rfl, by simpa [effect_append, effect] using b2, ?_, ?_, b5, ?_⟩ <;> simp only [upd_apply] <;> grind
    · rename_i x hp
      have key : x ≠ 0 ∧ 0 ≤ effect h + x ∧ effect h + x < 2147483648 ∧ (0 < effect h ∨ waits h = 0) := by
        have : ∃ post, evs = .eff p x :: post := by
          repeat' split at hs
          all_goals (simp only [Option.some.injEq, Prod.mk.injEq] at hs; obtain ⟨-, rfl⟩ := hs; exact ⟨_, rfl⟩)
        obtain ⟨post, rfl⟩ := this
        exact hd h p x post rfl
      obtain ⟨k1, k2, k3, k4⟩ := key
      have hwr : wrap (s.v + x) = effect h + x := by rw [hv]; exact wrap_small (by omega) k3
      have hz : effect h = 0 → s.w = 0 ∧ s.sem = 0 ∧ cnt s.pc n inWait = 0 := by
        intro he
        have : waits h = 0 := by omega
        unfold waits at this
        omega
      have hnw : cnt s.pc n inWait = 0 → ∀ q, s.pc q ≠ .woke := by
        intro hc q hq
        have := cnt_pos (f := s.pc) (n := n) (p := inWait) (hlt q (by simp [hq])) (by simp [hq, inWait])
        omega
      have hnc : ∀ q w, s.pc q ≠ .chk w := by
        intro q w hq
        have := b3 q w hq
        have := hz (by omega)
        omega
      have hfs : s.sem = 0 := by
        rcases Nat.eq_zero_or_pos s.sem with h' | h'
        · exact h'
        · have := b5 h'; exact (hz (by omega)).2.1
      have hfw : ∀ q, s.pc q ≠ .woke := by
        intro q hq
        have := b6 q hq
        exact hnw (hz (by omega)).2.2 q hq
      have hm : ¬ misuse s x := by
        unfold misuse
        rw [hwr]
        rintro (h' | ⟨h1, h2, h3⟩)
        · omega
        · rw [wrap_small (by omega) (by omega)] at h3
          exact h1 (hz (by omega)).1
      rw [if_neg hm, hwr] at hs
      split at hs <;> (simp only [Option.some.injEq, Prod.mk.injEq] at hs; obtain ⟨rfl, rfl⟩ := hs)
      · refine ⟨by first | exact b1 | rfl, by simp [effect_append, effect]; omega, ?_, ?_, ?_, ?_⟩ <;> simp only [upd_apply] <;> grind
      · refine ⟨by first | exact b1 | rfl, by simp [effect_append, effect]; omega, ?_, ?_, ?_, ?_⟩ <;> simp only [upd_apply] <;> grind
    · rename_i w hp
      obtain ⟨c1, c2, c3⟩ := b3 p w hp
      rw [if_pos ⟨c1, c2⟩] at hs
      simp only [Option.some.injEq, Prod.mk.injEq] at hs; obtain ⟨rfl, rfl⟩ := hs
      refine ⟨by first | exact b1 | rfl, by simpa [effect_append, effect] using b2, ?_, ?_, ?_, ?_⟩ <;> simp only [upd_apply] <;> grind
    · rename_i hp
      split at hs <;> (simp only [Option.some.injEq, Prod.mk.injEq] at hs; obtain ⟨rfl, rfl⟩ := hs)
      · refine ⟨by first | exact b1 | rfl, by simpa [effect_append, effect] using b2, ?_, ?_, ?_, ?_⟩ <;> simp only [upd_apply] <;> grind
      · refine ⟨by first | exact b1 | rfl, by simpa [effect_append, effect] using b2, ?_, ?_, ?_, ?_⟩ <;> simp only [upd_apply] <;> grind
    · rename_i hp
      split at hs
      · cases hs
      · simp only [Option.some.injEq, Prod.mk.injEq] at hs; obtain ⟨rfl, rfl⟩ := hs
        refine ⟨by first | exact b1 | rfl, by simpa [effect_append, effect] using b2, ?_, ?_, ?_, ?_⟩ <;> simp only [upd_apply] <;> grind
    · rename_i hp
      rw [if_pos (b6 p hp)] at hs
      simp only [Option.some.injEq, Prod.mk.injEq] at hs; obtain ⟨rfl, rfl⟩ := hs
      refine ⟨by first | exact b1 | rfl, by simpa [effect_append, effect] using b2, ?_, ?_, ?_, ?_⟩ <;> simp only [upd_apply] <;> grind

theorem Disciplined.prefix {h evs : List Ev} (hd : Disciplined (h ++ evs)) : Disciplined h := by
  intro h1 p d h2 he
  exact hd h1 p d (h2 ++ evs) (by rw [he]; simp)

theorem disc_run {n : Nat} {h : List Ev} {s : State} (hr : (sys n).Run h s) (hd : Disciplined h) : Disc h s := by
  refine Lts.Run.invariant (P := fun h s => Disciplined h → Disc h s) ?_ ?_ hr hd
  · intro _
    refine ⟨rfl, by simp [effect], ?_, ?_, ?_, ?_⟩ <;> simp [sys, init]
  · intro h s a s' evs hr hi hs hd
    exact disc_step (inv_run hr) (hi hd.prefix) hd hs

/-- The sum of what has taken effect stays in range. -/
theorem range_of {h : List Ev} (hd : DoneAfterAdd h) : 0 ≤ effect h ∧ effect h < 2147483648 := by
  suffices ∀ k, ∀ h : List Ev, h.length = k → DoneAfterAdd h → 0 ≤ effect h ∧ effect h < 2147483648 from
    this _ h rfl hd
  intro k
  induction k with
  | zero => intro h hl _; rw [List.length_eq_zero_iff.1 hl]; simp [effect]
  | succ k ih =>
    intro h hl hd
    obtain ⟨h', e, rfl⟩ : ∃ h' e, h = h' ++ [e] :=
      ⟨h.dropLast, h.getLast (by intro h0; simp [h0] at hl), (List.dropLast_concat_getLast _).symm⟩
    have hp : DoneAfterAdd h' := by
      intro h1 p d h2 he
      exact hd h1 p d (h2 ++ [e]) (by rw [he]; simp)
    have := ih h' (by simpa using hl) hp
    rw [effect_append]
    cases e with
    | eff p d => have := hd h' p d [] rfl; simp [effect]; omega
    | _ => simpa [effect] using this

theorem waitRet_step {n : Nat} {s s' : State} {a : Act} {pre post : List Ev} {p : Nat}
    (hs : step n s a = some (s', pre ++ Ev.waitRet p :: post)) : s.v = 0 ∧ pre = [] := by
  generalize he : pre ++ Ev.waitRet p :: post = evs at hs
  unfold step go at hs
  repeat' split at hs
  all_goals first
    | cases hs; done
    | skip
  all_goals (simp only [Option.some.injEq, Prod.mk.injEq] at hs; obtain ⟨-, rfl⟩ := hs)
  all_goals rcases pre with _ | ⟨e0, _ | ⟨e1, pre⟩⟩ <;> simp at he
  all_goals simp_all

theorem count_step {n : Nat} {s s' : State} {a : Act} {pre post : List Ev} {p : Nat} {x : Int}
    (hs : step n s a = some (s', pre ++ Ev.count p x :: post)) : s.counter = x ∧ pre = [] := by
  generalize he : pre ++ Ev.count p x :: post = evs at hs
  unfold step go at hs
  repeat' split at hs
  all_goals first
    | cases hs; done
    | skip
  all_goals (simp only [Option.some.injEq, Prod.mk.injEq] at hs; obtain ⟨-, rfl⟩ := hs)
  all_goals rcases pre with _ | ⟨e0, _ | ⟨e1, pre⟩⟩ <;> simp at he
  all_goals simp_all

theorem psum_quiet {n : Nat} {h : List Ev} {s : State} (i : Inv n h s) (hq : Quiet h) : psum s.pc n = 0 := by
  suffices ∀ m, psum s.pc m = 0 from this n
  intro m
  induction m with
  | zero => rfl
  | succ m ih =>
    have := hq m
    rw [i.busy] at this
    simp only [psum, ih]
    cases hx : s.pc m <;> simp_all [inAdd, pend]

/-- The process ends only by a panic, and as long as it has not, waiters that the counter has reached 0 for are about to
be released. -/
structure Rel (h : List Ev) (s : State) : Prop where
  crash : s.crashed = true → ∃ p, Ev.panic p ∈ h
  rel : s.crashed = false → s.w ≠ 0 → s.v = 0 → ∃ p, s.pc p = .chk s.w

theorem rel_step {n : Nat} {h : List Ev} {s s' : State} {a : Act} {evs : List Ev} (r : Rel h s)
    (hs : step n s a = some (s', evs)) : Rel (h ++ evs) s' := by
  obtain ⟨r1, r2⟩ := r
  unfold step at hs
  split at hs
  · cases hs
  rename_i hc
  have hc : s.crashed = false := by simpa using hc
  have keep : ∀ p x, (∀ w, s.pc p ≠ .chk w) → (∃ q, s.pc q = .chk s.w) → ∃ q, upd s.pc p x q = .chk s.w := by
    rintro p x hp ⟨q, hq⟩
    exact ⟨q, by rw [upd_of_ne _ _ (by rintro rfl; exact hp _ hq)]; exact hq⟩
  have r3 := r2 hc
  split at hs
  · split at hs
    · rename_i hp
      simp only [Option.some.injEq, Prod.mk.injEq] at hs; obtain ⟨rfl, rfl⟩ := hs
      exact ⟨by simp [hc], fun _ h1 h2 => keep _ _ (by simp [hp.2]) (r3 h1 h2)⟩
    · cases hs
  · split at hs
    · rename_i hp
      simp only [Option.some.injEq, Prod.mk.injEq] at hs; obtain ⟨rfl, rfl⟩ := hs
      exact ⟨by simp [hc], fun _ h1 h2 => keep _ _ (by simp [hp.2]) (r3 h1 h2)⟩
    · cases hs
  · split at hs
    · simp only [Option.some.injEq, Prod.mk.injEq] at hs; obtain ⟨rfl, rfl⟩ := hs
      exact ⟨by simp [hc], fun _ => r3⟩
    · cases hs
  · rename_i p
    unfold go at hs
    split at hs
    · cases hs
    · rename_i d hp
      simp only [Option.some.injEq, Prod.mk.injEq] at hs; obtain ⟨rfl, rfl⟩ := hs
      exact ⟨by simp [hc], fun _ h1 h2 => keep _ _ (by simp [hp]) (r3 h1 h2)⟩
    · rename_i d hp
      split at hs
      · simp only [Option.some.injEq, Prod.mk.injEq] at hs; obtain ⟨rfl, rfl⟩ := hs
        exact ⟨fun _ => ⟨p, by simp⟩, by simp⟩
      · split at hs <;> (simp only [Option.some.injEq, Prod.mk.injEq] at hs; obtain ⟨rfl, rfl⟩ := hs)
        · rename_i hw
          refine ⟨by simp [hc], fun _ h1 h2 => ?_⟩
          simp only at h1 h2
          omega
        · exact ⟨by simp [hc], fun _ h1 h2 => ⟨p, by simp⟩⟩
    · rename_i w hp
      split at hs <;> (simp only [Option.some.injEq, Prod.mk.injEq] at hs; obtain ⟨rfl, rfl⟩ := hs)
      · exact ⟨by simp [hc], by simp⟩
      · exact ⟨fun _ => ⟨p, by simp⟩, by simp⟩
    · rename_i hp
      split at hs <;> (simp only [Option.some.injEq, Prod.mk.injEq] at hs; obtain ⟨rfl, rfl⟩ := hs)
      · exact ⟨by simp [hc], fun _ h1 h2 => keep _ _ (by simp [hp]) (r3 h1 h2)⟩
      · rename_i hv
        exact ⟨by simp [hc], fun _ _ h2 => absurd h2 hv⟩
    · rename_i hp
      split at hs
      · cases hs
      · simp only [Option.some.injEq, Prod.mk.injEq] at hs; obtain ⟨rfl, rfl⟩ := hs
        exact ⟨by simp [hc], fun _ h1 h2 => keep _ _ (by simp [hp]) (r3 h1 h2)⟩
    · rename_i hp
      split at hs <;> (simp only [Option.some.injEq, Prod.mk.injEq] at hs; obtain ⟨rfl, rfl⟩ := hs)
      · exact ⟨by simp [hc], fun _ h1 h2 => keep _ _ (by simp [hp]) (r3 h1 h2)⟩
      · exact ⟨fun _ => ⟨p, by simp⟩, by simp⟩

theorem rel_run {n : Nat} {h : List Ev} {s : State} (hr : (sys n).Run h s) : Rel h s :=
  Lts.Run.invariant (P := Rel) ⟨by simp [sys, init], by simp [sys, init]⟩ (fun _ _ _ _ _ _ hi hs => rel_step hi hs) hr

/-- Nothing but `Wait`s in progress, and the counter is 0. -/
structure Rest (n : Nat) (h : List Ev) (s : State) : Prop where
  inv : Inv n h s
  alive : s.crashed = false
  v : s.v = 0
  w : s.w = 0
  pc : ∀ p, inAdd (s.pc p) = false

theorem rest_step {n : Nat} {h : List Ev} {s s' : State} {p : Nat} {evs : List Ev} (r : Rest n h s)
    (hs : step n s (.go p) = some (s', evs)) : Rest n (h ++ evs) s' ∧ (∀ e ∈ evs, e = .waitRet p) ∧
      cnt s'.pc n inWait + cnt s'.pc n isParked + 1 = cnt s.pc n inWait + cnt s.pc n isParked := by
  have i' := inv_step r.inv hs
  obtain ⟨i, hc, hv, hw, hp⟩ := r
  unfold step at hs
  simp only [hc, Bool.false_eq_true, if_false] at hs
  have hpp := hp p
  have hpn : s.pc p ≠ .idle → p < n := by
    intro h
    rcases Nat.lt_or_ge p n with h' | h'
    · exact h'
    · exact absurd (i.out p h') h
  have keep : ∀ x, inAdd x = false → ∀ q, inAdd (upd s.pc p x q) = false := by
    intro x hx q
    rw [upd_apply]
    split
    · exact hx
    · exact hp q
  have c1 := fun x hp => cnt_upd s.pc n p x inWait hp
  have c2 := fun x hp => cnt_upd s.pc n p x isParked hp
  unfold go at hs
  split at hs <;> rename_i he
  · cases hs
  · simp [he, inAdd] at hpp
  · simp [he, inAdd] at hpp
  · simp [he, inAdd] at hpp
  · rw [if_pos hv] at hs
    simp only [Option.some.injEq, Prod.mk.injEq] at hs; obtain ⟨rfl, rfl⟩ := hs
    refine ⟨⟨i', hc, hv, hw, keep _ rfl⟩, by simp, ?_⟩
    have := c1 .idle (hpn (by simp [he])); have := c2 .idle (hpn (by simp [he]))
    simp [he, inWait, isParked] at *; omega
  · split at hs
    · cases hs
    simp only [Option.some.injEq, Prod.mk.injEq] at hs; obtain ⟨rfl, rfl⟩ := hs
    refine ⟨⟨i', hc, hv, hw, keep _ rfl⟩, by simp, ?_⟩
    have := c1 .woke (hpn (by simp [he])); have := c2 .woke (hpn (by simp [he]))
    simp [he, inWait, isParked] at *; omega
  · rw [if_pos ⟨hv, hw⟩] at hs
    simp only [Option.some.injEq, Prod.mk.injEq] at hs; obtain ⟨rfl, rfl⟩ := hs
    refine ⟨⟨i', hc, hv, hw, keep _ rfl⟩, by simp, ?_⟩
    have := c1 .idle (hpn (by simp [he])); have := c2 .idle (hpn (by simp [he]))
    simp [he, inWait, isParked] at *; omega

theorem rest_exec {n : Nat} (as : List Act) : ∀ {h h' : List Ev} {s s' : State}, Rest n h s →
    (∀ a ∈ as, ∃ p, a = .go p) → (sys n).exec s as = some (s', h') → Rest n (h ++ h') s' ∧
      (∀ e ∈ h', ∃ p, e = .waitRet p) ∧
      cnt s'.pc n inWait + cnt s'.pc n isParked + as.length = cnt s.pc n inWait + cnt s.pc n isParked := by
  induction as with
  | nil =>
    intro h h' s s' r _ hx
    simp only [Lts.exec, Option.some.injEq, Prod.mk.injEq] at hx
    obtain ⟨rfl, rfl⟩ := hx
    exact ⟨by simpa using r, by simp, rfl⟩
  | cons a as ih =>
    intro h h' s s' r ha hx
    obtain ⟨p, rfl⟩ := ha a (by simp)
    simp only [Lts.exec] at hx
    split at hx
    · cases hx
    rename_i s1 e1 h1
    split at hx
    · cases hx
    rename_i s2 e2 h2
    simp only [Option.some.injEq, Prod.mk.injEq] at hx
    obtain ⟨rfl, rfl⟩ := hx
    obtain ⟨r1, g1, m1⟩ := rest_step r h1
    obtain ⟨r2, g2, m2⟩ := ih r1 (fun a h => ha a (List.mem_cons_of_mem _ h)) h2
    refine ⟨by simpa using r2, ?_, by simp only [List.length_cons]; omega⟩
    intro e he
    rcases List.mem_append.1 he with he | he
    · exact ⟨p, g1 e he⟩
    · exact g2 e he

theorem rest_of {n : Nat} {h : List Ev} {s : State} (hr : (sys n).Run h s) (hp : ∀ p, Ev.panic p ∉ h) (hq : Quiet h)
    (h0 : effect h = 0) : Rest n h s := by
  have i := inv_run hr
  have r := rel_run hr
  have hc : s.crashed = false := by
    cases hc : s.crashed with
    | false => rfl
    | true => obtain ⟨p, h⟩ := r.crash hc; exact absurd h (hp p)
  have hv : s.v = 0 := by rw [i.v, h0]; rfl
  have hpc : ∀ p, inAdd (s.pc p) = false := fun p => by rw [← i.busy]; exact hq p
  refine ⟨i, hc, hv, ?_, hpc⟩
  rcases Nat.eq_zero_or_pos s.w with hw | hw
  · exact hw
  · obtain ⟨p, h⟩ := r.rel hc (by omega) hv
    have := hpc p
    simp [h, inAdd] at this

end Braid.WaitGroup
