import Verif.Shutdown.Spec
import Verif.Lib.Count

/-
Invariants of the shutdown (helper lemmas).
-/
namespace Braid.Shutdown

def active : GPc → Bool
  | .ask | .wait => true
  | _ => false

theorem countP_upd {l : List Nat} (hn : l.Nodup) (f : Nat → GPc) (a : Nat) (v : GPc) (ha : a ∈ l) :
    l.countP (fun x => active (upd f a v x)) + (if active (f a) then 1 else 0) =
      l.countP (fun x => active (f x)) + if active v then 1 else 0 := by
  induction l with
  | nil => cases ha
  | cons b l ih =>
    rw [List.nodup_cons] at hn
    rw [List.countP_cons, List.countP_cons]
    by_cases hb : b = a
    · subst hb
      have : l.countP (fun x => active (upd f b v x)) = l.countP (fun x => active (f x)) := by
        apply List.countP_congr
        intro x hx
        have : x ≠ b := by rintro rfl; exact hn.1 hx
        rw [upd_of_ne _ _ this]
      rw [this, upd_same]; omega
    · have := ih hn.2 (by rcases List.mem_cons.1 ha with h | h; exact absurd h.symm hb; exact h)
      rw [upd_of_ne _ _ hb]; omega

theorem countP_new (l : List Nat) (f : Nat → GPc) (a : Nat) (v : GPc) (ha : a ∉ l) :
    l.countP (fun x => active (upd f a v x)) = l.countP (fun x => active (f x)) := by
  apply List.countP_congr
  intro x hx
  have : x ≠ a := by rintro rfl; exact ha hx
  rw [upd_of_ne _ _ this]

structure Inv (c : Cfg) (h : List Ev) (s : State) : Prop where
  stopped : ∀ a, Ev.stopped a ∈ h ↔ s.stopped a = true
  del : ∀ a, s.ux a = .del → s.stopped a = true
  put : ∀ a, Ev.put a ∈ h → a ∈ s.amap ∨ s.stopped a = true
  sig : Ev.sig ∈ h ↔ s.main ≠ .idle
  snapm : ∀ a ∈ s.snap, a ∈ s.amap ∨ s.stopped a = true
  snap : s.main ≠ .idle → s.main ≠ .acc → ∀ a, Earlier h (.put a) .sig → a ∈ s.snap ∨ s.stopped a = true
  vis : ∀ a, a ∈ s.visited ↔ s.gx a ≠ .no
  nodup : s.visited.Nodup
  all : s.main = .clear ∨ s.main = .wait ∨ s.main = .done → ∀ a ∈ s.snap, s.gx a ≠ .no ∨ s.stopped a = true
  fin : ∀ a, s.gx a = .fin → s.stopped a = true
  wg : s.wg = s.visited.countP fun a => active (s.gx a)
  ch : s.doneCh = true → (∀ a, active (s.gx a) = false) ∧ (s.main = .wait ∨ s.main = .done)
  acc : c.acceptor = true → s.main ≠ .idle → s.main ≠ .acc → Ev.accClosed ∈ h
  early : s.main = .idle ∨ s.main = .acc → s.visited = []
  book : ∀ a, recorded h a = s.book a

theorem Earlier.of_append {h evs : List Ev} {x y : Ev} (he : Earlier (h ++ evs) x y) :
    Earlier h x y ∨ (y ∈ evs) := by
  obtain ⟨h1, h2, e, hx⟩ := he
  rcases append_eq_mid e with ⟨t, e1, e2⟩ | ⟨t, e1, e2⟩
  · left; exact ⟨h1, t, e1, hx⟩
  · right; rw [e1]; simp

theorem Earlier.mem {h : List Ev} {x y : Ev} (he : Earlier h x y) : x ∈ h := by
  obtain ⟨h1, h2, e, hx⟩ := he; rw [e]; simp [hx]

theorem recorded_append (a b : List Ev) (x : Nat) : recorded (a ++ b) x = b.foldl (track x) (recorded a x) := by
  simp [recorded]

theorem inv_init (c : Cfg) : Inv c [] init := by
  constructor <;> simp [init, recorded, active]

theorem Inv.keep {h evs : List Ev} (hn : Ev.sig ∉ evs) (a : Nat) (he : Earlier (h ++ evs) (.put a) .sig) :
    Earlier h (.put a) .sig := by
  rcases he.of_append with h' | h'
  · exact h'
  · exact absurd h' hn

theorem inv_sig {c : Cfg} {h : List Ev} {s s' : State} {evs : List Ev}  (i : Inv c h s)
    (hs : step c s .sig = some (s', evs)) : Inv c (h ++ evs) s' := by
  obtain ⟨i1, i2, i3, i4, i5, i6, i7, i8, i9, i10, i11, i12, i13, i14, i15⟩ := i
  have hP : ∀ a, Earlier h (.put a) .sig → Ev.put a ∈ h := fun a he => he.mem
  unfold step at hs
  split at hs
  · cases hs
  simp only at hs
  split at hs
  · simp only [Option.some.injEq, Prod.mk.injEq] at hs; obtain ⟨rfl, rfl⟩ := hs
    constructor <;> simp only [List.mem_append, List.mem_singleton, recorded_append, List.foldl, track] <;> grind
  · cases hs

theorem inv_acc {c : Cfg} {h : List Ev} {s s' : State} {evs : List Ev}  (i : Inv c h s)
    (hs : step c s .acc = some (s', evs)) : Inv c (h ++ evs) s' := by
  obtain ⟨i1, i2, i3, i4, i5, i6, i7, i8, i9, i10, i11, i12, i13, i14, i15⟩ := i
  have hP : ∀ a, Earlier h (.put a) .sig → Ev.put a ∈ h := fun a he => he.mem
  unfold step at hs
  split at hs
  · cases hs
  simp only at hs
  split at hs
  · rename_i hm
    simp only [Option.some.injEq, Prod.mk.injEq] at hs; obtain ⟨rfl, rfl⟩ := hs
    have hE : ∀ x, Earlier (h ++ (if c.acceptor = true then [Ev.accClosed] else [])) (.put x) .sig → Earlier h (.put x) .sig := Inv.keep (by split <;> simp)
    have hR : ∀ a, recorded (h ++ (if c.acceptor = true then [Ev.accClosed] else [])) a = recorded h a := by
      intro a; split <;> simp [recorded, track]
    constructor <;> (try simp only [List.mem_append, hR]) <;> grind
  · cases hs

theorem inv_visit {c : Cfg} {h : List Ev} {s s' : State} {evs : List Ev} (a : Nat) (i : Inv c h s)
    (hs : step c s (.visit a) = some (s', evs)) : Inv c (h ++ evs) s' := by
  obtain ⟨i1, i2, i3, i4, i5, i6, i7, i8, i9, i10, i11, i12, i13, i14, i15⟩ := i
  have hP : ∀ a, Earlier h (.put a) .sig → Ev.put a ∈ h := fun a he => he.mem
  unfold step at hs
  split at hs
  · cases hs
  simp only at hs
  split at hs
  · rename_i hm
    simp only [Option.some.injEq, Prod.mk.injEq] at hs; obtain ⟨rfl, rfl⟩ := hs
    have hE : ∀ x, Earlier (h ++ []) (.put x) .sig → Earlier h (.put x) .sig := Inv.keep (by simp)
    have hn := countP_new s.visited s.gx a .ask hm.2.2
    constructor <;>
      (try simp only [List.append_nil, upd_apply, List.countP_cons, List.nodup_cons] at *) <;> grind [active]
  · cases hs

theorem inv_endIter {c : Cfg} {h : List Ev} {s s' : State} {evs : List Ev}  (i : Inv c h s)
    (hs : step c s .endIter = some (s', evs)) : Inv c (h ++ evs) s' := by
  obtain ⟨i1, i2, i3, i4, i5, i6, i7, i8, i9, i10, i11, i12, i13, i14, i15⟩ := i
  have hP : ∀ a, Earlier h (.put a) .sig → Ev.put a ∈ h := fun a he => he.mem
  unfold step at hs
  split at hs
  · cases hs
  simp only at hs
  split at hs
  · simp only [Option.some.injEq, Prod.mk.injEq] at hs; obtain ⟨rfl, rfl⟩ := hs
    have hE : ∀ x, Earlier (h ++ []) (.put x) .sig → Earlier h (.put x) .sig := Inv.keep (by simp)
    constructor <;> (try simp only [List.append_nil] at *) <;> grind
  · cases hs

theorem inv_clear {c : Cfg} {h : List Ev} {s s' : State} {evs : List Ev} (ok : Bool) (i : Inv c h s)
    (hs : step c s (.clear ok) = some (s', evs)) : Inv c (h ++ evs) s' := by
  obtain ⟨i1, i2, i3, i4, i5, i6, i7, i8, i9, i10, i11, i12, i13, i14, i15⟩ := i
  have hP : ∀ a, Earlier h (.put a) .sig → Ev.put a ∈ h := fun a he => he.mem
  unfold step at hs
  split at hs
  · cases hs
  simp only at hs
  split at hs
  · split at hs <;> (simp only [Option.some.injEq, Prod.mk.injEq] at hs; obtain ⟨rfl, rfl⟩ := hs)
    · have hE : ∀ x, Earlier (h ++ [.cleared]) (.put x) .sig → Earlier h (.put x) .sig := Inv.keep (by simp)
      constructor <;> (try simp only [List.mem_append, List.mem_singleton, recorded_append, List.foldl, track]) <;> grind
    · have hE : ∀ x, Earlier (h ++ [.clearFail]) (.put x) .sig → Earlier h (.put x) .sig := Inv.keep (by simp)
      constructor <;> (try simp only [List.mem_append, List.mem_singleton, recorded_append, List.foldl, track]) <;> grind
  · cases hs

theorem inv_waiter {c : Cfg} {h : List Ev} {s s' : State} {evs : List Ev}  (i : Inv c h s)
    (hs : step c s .waiter = some (s', evs)) : Inv c (h ++ evs) s' := by
  obtain ⟨i1, i2, i3, i4, i5, i6, i7, i8, i9, i10, i11, i12, i13, i14, i15⟩ := i
  have hP : ∀ a, Earlier h (.put a) .sig → Ev.put a ∈ h := fun a he => he.mem
  unfold step at hs
  split at hs
  · cases hs
  simp only at hs
  split at hs
  · rename_i hm
    simp only [Option.some.injEq, Prod.mk.injEq] at hs; obtain ⟨rfl, rfl⟩ := hs
    have hE : ∀ x, Earlier (h ++ []) (.put x) .sig → Earlier h (.put x) .sig := Inv.keep (by simp)
    have hz : ∀ a, active (s.gx a) = false := by
      intro a
      have h0 : s.visited.countP (fun a => active (s.gx a)) = 0 := by omega
      rw [List.countP_eq_zero] at h0
      by_cases ha : a ∈ s.visited
      · simpa using h0 a ha
      · have : s.gx a = .no := by
          by_cases hx : s.gx a = .no
          · exact hx
          · exact absurd ((i7 a).2 hx) ha
        rw [this]; rfl
    constructor <;> (try simp only [List.append_nil] at *) <;> grind
  · cases hs

theorem inv_select {c : Cfg} {h : List Ev} {s s' : State} {evs : List Ev}  (i : Inv c h s)
    (hs : step c s .select = some (s', evs)) : Inv c (h ++ evs) s' := by
  obtain ⟨i1, i2, i3, i4, i5, i6, i7, i8, i9, i10, i11, i12, i13, i14, i15⟩ := i
  have hP : ∀ a, Earlier h (.put a) .sig → Ev.put a ∈ h := fun a he => he.mem
  unfold step at hs
  split at hs
  · cases hs
  simp only at hs
  split at hs
  · simp only [Option.some.injEq, Prod.mk.injEq] at hs; obtain ⟨rfl, rfl⟩ := hs
    have hE : ∀ x, Earlier (h ++ [.graceful]) (.put x) .sig → Earlier h (.put x) .sig := Inv.keep (by simp)
    constructor <;> (try simp only [List.mem_append, List.mem_singleton, recorded_append, List.foldl, track]) <;> grind
  · cases hs

theorem inv_timeout {c : Cfg} {h : List Ev} {s s' : State} {evs : List Ev}  (i : Inv c h s)
    (hs : step c s .timeout = some (s', evs)) : Inv c (h ++ evs) s' := by
  obtain ⟨i1, i2, i3, i4, i5, i6, i7, i8, i9, i10, i11, i12, i13, i14, i15⟩ := i
  have hP : ∀ a, Earlier h (.put a) .sig → Ev.put a ∈ h := fun a he => he.mem
  unfold step at hs
  split at hs
  · cases hs
  simp only at hs
  split at hs
  · simp only [Option.some.injEq, Prod.mk.injEq] at hs; obtain ⟨rfl, rfl⟩ := hs
    have hE : ∀ x, Earlier (h ++ [.timedOut]) (.put x) .sig → Earlier h (.put x) .sig := Inv.keep (by simp)
    constructor <;> (try simp only [List.mem_append, List.mem_singleton, recorded_append, List.foldl, track]) <;> grind
  · cases hs

theorem inv_gx {c : Cfg} {h : List Ev} {s s' : State} {evs : List Ev} (a : Nat) (i : Inv c h s)
    (hs : step c s (.gx a) = some (s', evs)) : Inv c (h ++ evs) s' := by
  obtain ⟨i1, i2, i3, i4, i5, i6, i7, i8, i9, i10, i11, i12, i13, i14, i15⟩ := i
  have hP : ∀ a, Earlier h (.put a) .sig → Ev.put a ∈ h := fun a he => he.mem
  unfold step at hs
  split at hs
  · cases hs
  simp only at hs
  split at hs
  · rename_i hg
    split at hs <;> (simp only [Option.some.injEq, Prod.mk.injEq] at hs; obtain ⟨rfl, rfl⟩ := hs)
    · have hE : ∀ x, Earlier (h ++ [.crash a]) (.put x) .sig → Earlier h (.put x) .sig := Inv.keep (by simp)
      constructor <;> (try simp only [List.mem_append, List.mem_singleton, recorded_append, List.foldl, track]) <;> grind
    · have hE : ∀ x, Earlier (h ++ [.ask a]) (.put x) .sig → Earlier h (.put x) .sig := Inv.keep (by simp)
      have hv := (i7 a).2 (by rw [hg]; simp)
      have hc := countP_upd i8 s.gx a .wait hv
      simp only [hg, active, if_true] at hc
      constructor <;>
        (try simp only [List.mem_append, List.mem_singleton, recorded_append, List.foldl, track, upd_apply] at *) <;>
        grind [active]
  · rename_i hg
    split at hs
    · simp only [Option.some.injEq, Prod.mk.injEq] at hs; obtain ⟨rfl, rfl⟩ := hs
      have hE : ∀ x, Earlier (h ++ [.exited a]) (.put x) .sig → Earlier h (.put x) .sig := Inv.keep (by simp)
      have hv := (i7 a).2 (by rw [hg]; simp)
      have hc := countP_upd i8 s.gx a .fin hv
      simp only [hg, active, if_true, Bool.false_eq_true, if_false, Nat.add_zero] at hc
      constructor <;>
        (try simp only [List.mem_append, List.mem_singleton, recorded_append, List.foldl, track, upd_apply] at *) <;>
        grind [active]
    · cases hs
  · cases hs

theorem inv_stop {c : Cfg} {h : List Ev} {s s' : State} {evs : List Ev} (a : Nat) (i : Inv c h s)
    (hs : step c s (.stop a) = some (s', evs)) : Inv c (h ++ evs) s' := by
  obtain ⟨i1, i2, i3, i4, i5, i6, i7, i8, i9, i10, i11, i12, i13, i14, i15⟩ := i
  have hP : ∀ a, Earlier h (.put a) .sig → Ev.put a ∈ h := fun a he => he.mem
  unfold step at hs
  split at hs
  · cases hs
  simp only at hs
  split at hs
  · simp only [Option.some.injEq, Prod.mk.injEq] at hs; obtain ⟨rfl, rfl⟩ := hs
    have hE : ∀ x, Earlier (h ++ [.stopped a]) (.put x) .sig → Earlier h (.put x) .sig := Inv.keep (by simp)
    constructor <;>
      (try simp only [List.mem_append, List.mem_singleton, recorded_append, List.foldl, track, upd_apply] at *) <;> grind
  · cases hs

theorem inv_regCall {c : Cfg} {h : List Ev} {s s' : State} {evs : List Ev} (a : Nat) (i : Inv c h s)
    (hs : step c s (.regCall a) = some (s', evs)) : Inv c (h ++ evs) s' := by
  obtain ⟨i1, i2, i3, i4, i5, i6, i7, i8, i9, i10, i11, i12, i13, i14, i15⟩ := i
  have hP : ∀ a, Earlier h (.put a) .sig → Ev.put a ∈ h := fun a he => he.mem
  unfold step at hs
  split at hs
  · cases hs
  simp only at hs
  split at hs
  · simp only [Option.some.injEq, Prod.mk.injEq] at hs; obtain ⟨rfl, rfl⟩ := hs
    have hE : ∀ x, Earlier (h ++ [.regCall a]) (.put x) .sig → Earlier h (.put x) .sig := Inv.keep (by simp)
    constructor <;>
      (try simp only [List.mem_append, List.mem_singleton, recorded_append, List.foldl, track, upd_apply] at *) <;> grind
  · cases hs

theorem inv_reg {c : Cfg} {h : List Ev} {s s' : State} {evs : List Ev} (a : Nat) (ok : Bool) (i : Inv c h s)
    (hs : step c s (.reg a ok) = some (s', evs)) : Inv c (h ++ evs) s' := by
  obtain ⟨i1, i2, i3, i4, i5, i6, i7, i8, i9, i10, i11, i12, i13, i14, i15⟩ := i
  have hP : ∀ a, Earlier h (.put a) .sig → Ev.put a ∈ h := fun a he => he.mem
  unfold step at hs
  split at hs
  · cases hs
  simp only at hs
  split at hs
  · split at hs <;> (simp only [Option.some.injEq, Prod.mk.injEq] at hs; obtain ⟨rfl, rfl⟩ := hs)
    · have hE : ∀ x, Earlier (h ++ [.recorded a]) (.put x) .sig → Earlier h (.put x) .sig := Inv.keep (by simp)
      constructor <;>
        (try simp only [List.mem_append, List.mem_singleton, recorded_append, List.foldl, track, upd_apply] at *) <;> grind
    · have hE : ∀ x, Earlier (h ++ [.regFail a]) (.put x) .sig → Earlier h (.put x) .sig := Inv.keep (by simp)
      constructor <;>
        (try simp only [List.mem_append, List.mem_singleton, recorded_append, List.foldl, track, upd_apply] at *) <;> grind
  · simp only [Option.some.injEq, Prod.mk.injEq] at hs; obtain ⟨rfl, rfl⟩ := hs
    have hE : ∀ x, Earlier (h ++ []) (.put x) .sig → Earlier h (.put x) .sig := Inv.keep (by simp)
    constructor <;> (try simp only [List.append_nil, upd_apply] at *) <;> grind
  · simp only [Option.some.injEq, Prod.mk.injEq] at hs; obtain ⟨rfl, rfl⟩ := hs
    have hE : ∀ x, Earlier (h ++ [.put a]) (.put x) .sig → Earlier h (.put x) .sig := Inv.keep (by simp)
    constructor <;>
      (try simp only [List.mem_append, List.mem_singleton, recorded_append, List.foldl, track, upd_apply] at *) <;> grind
  · cases hs

theorem inv_unregCall {c : Cfg} {h : List Ev} {s s' : State} {evs : List Ev} (a : Nat) (i : Inv c h s)
    (hs : step c s (.unregCall a) = some (s', evs)) : Inv c (h ++ evs) s' := by
  obtain ⟨i1, i2, i3, i4, i5, i6, i7, i8, i9, i10, i11, i12, i13, i14, i15⟩ := i
  have hP : ∀ a, Earlier h (.put a) .sig → Ev.put a ∈ h := fun a he => he.mem
  unfold step at hs
  split at hs
  · cases hs
  simp only at hs
  split at hs
  · simp only [Option.some.injEq, Prod.mk.injEq] at hs; obtain ⟨rfl, rfl⟩ := hs
    have hE : ∀ x, Earlier (h ++ [.unregCall a]) (.put x) .sig → Earlier h (.put x) .sig := Inv.keep (by simp)
    constructor <;>
      (try simp only [List.mem_append, List.mem_singleton, recorded_append, List.foldl, track, upd_apply] at *) <;> grind
  · cases hs

theorem inv_unreg {c : Cfg} {h : List Ev} {s s' : State} {evs : List Ev} (a : Nat) (i : Inv c h s)
    (hs : step c s (.unreg a) = some (s', evs)) : Inv c (h ++ evs) s' := by
  obtain ⟨i1, i2, i3, i4, i5, i6, i7, i8, i9, i10, i11, i12, i13, i14, i15⟩ := i
  have hP : ∀ a, Earlier h (.put a) .sig → Ev.put a ∈ h := fun a he => he.mem
  unfold step at hs
  split at hs
  · cases hs
  simp only at hs
  split at hs
  · split at hs <;> (simp only [Option.some.injEq, Prod.mk.injEq] at hs; obtain ⟨rfl, rfl⟩ := hs)
    · have hE : ∀ x, Earlier (h ++ [.crash a]) (.put x) .sig → Earlier h (.put x) .sig := Inv.keep (by simp)
      constructor <;>
        (try simp only [List.mem_append, List.mem_singleton, recorded_append, List.foldl, track, upd_apply] at *) <;> grind
    · have hE : ∀ x, Earlier (h ++ []) (.put x) .sig → Earlier h (.put x) .sig := Inv.keep (by simp)
      constructor <;> (try simp only [List.append_nil, upd_apply] at *) <;> grind
  · split at hs
    · simp only [Option.some.injEq, Prod.mk.injEq] at hs; obtain ⟨rfl, rfl⟩ := hs
      have hE : ∀ x, Earlier (h ++ []) (.put x) .sig → Earlier h (.put x) .sig := Inv.keep (by simp)
      constructor <;> (try simp only [List.append_nil, upd_apply] at *) <;> grind
    · cases hs
  · simp only [Option.some.injEq, Prod.mk.injEq] at hs; obtain ⟨rfl, rfl⟩ := hs
    have hE : ∀ x, Earlier (h ++ []) (.put x) .sig → Earlier h (.put x) .sig := Inv.keep (by simp)
    constructor <;> (try simp only [List.append_nil, upd_apply] at *) <;> grind
  · simp only [Option.some.injEq, Prod.mk.injEq] at hs; obtain ⟨rfl, rfl⟩ := hs
    have hE : ∀ x, Earlier (h ++ [.erased a]) (.put x) .sig → Earlier h (.put x) .sig := Inv.keep (by simp)
    constructor <;>
      (try simp only [List.mem_append, List.mem_singleton, recorded_append, List.foldl, track, upd_apply] at *) <;> grind
  · cases hs

theorem inv_step {c : Cfg} {h : List Ev} {s s' : State} {x : Act} {evs : List Ev} (i : Inv c h s)
    (hs : step c s x = some (s', evs)) : Inv c (h ++ evs) s' := by
  cases x with
  | sig => exact inv_sig i hs
  | acc => exact inv_acc i hs
  | visit a => exact inv_visit a i hs
  | endIter => exact inv_endIter i hs
  | clear ok => exact inv_clear ok i hs
  | waiter => exact inv_waiter i hs
  | select => exact inv_select i hs
  | timeout => exact inv_timeout i hs
  | gx a => exact inv_gx a i hs
  | stop a => exact inv_stop a i hs
  | regCall a => exact inv_regCall a i hs
  | reg a ok => exact inv_reg a ok i hs
  | unregCall a => exact inv_unregCall a i hs
  | unreg a => exact inv_unreg a i hs

theorem inv_run {c : Cfg} {h : List Ev} {s : State} (hr : (sys c).Run h s) : Inv c h s :=
  Lts.Run.invariant (P := Inv c) (inv_init c) (fun _ _ _ _ _ _ hi hs => inv_step hi hs) hr

end Braid.Shutdown
