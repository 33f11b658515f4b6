import Verif.Future.InvA

/-
A view of the future model per future: the record and where the goroutine holding its mutex is.
-/
namespace Braid.Future
variable {V : Type}

structure View (V : Type) where
  fut : Fut V
  pc : Pc V

/-- Where the holder of the mutex of `f` is; `idle` when it is free. -/
def holder (s : St V) (f : Nat) : Pc V :=
  match (s.fut f).lock with
  | none => .idle
  | some t => s.pc t

def view (s : St V) (f : Nat) : View V := ⟨s.fut f, holder s f⟩

/-- The transitions seen through the view. -/
inductive TrV (w : Nat → View V) (tasks : List (Task V)) (n m : Nat) :
    (Nat → View V) → List (Task V) → Nat → Nat → List (Ev V) → Prop
  | new : TrV w tasks n m w tasks n (m + 1) []
  | thenLock (f : Nat) (x : Fut V) (hp : (w f).pc = .idle) (hl : (w f).fut.lock = none)
      (hx : x.done = (w f).fut.done ∧ x.result = (w f).fut.result ∧ x.cbs = (w f).fut.cbs) :
      TrV w tasks n m (upd w f ⟨x, .thenCheck f n⟩) tasks (n + 1) m [.then_ n f]
  | compLock (t : Tid) (f : Nat) (v : V) (x : Fut V) (hp : (w f).pc = .idle)
      (hl : (w f).fut.lock = none)
      (hx : x.done = (w f).fut.done ∧ x.result = (w f).fut.result ∧ x.cbs = (w f).fut.cbs) :
      TrV w tasks n m (upd w f ⟨x, .compCheck f v⟩) tasks n m [.complete t f v]
  | obs (f : Nat) : TrV w tasks n m w tasks n m [.obs f (w f).fut.done]
  | thenDone (f r : Nat) (hp : (w f).pc = .thenCheck f r) (hd : (w f).fut.done = true) :
      TrV w tasks n m (upd w f ⟨(w f).fut, .thenLate f r⟩) tasks n m []
  | thenPend (f r : Nat) (hp : (w f).pc = .thenCheck f r) (hd : (w f).fut.done = false) :
      TrV w tasks n m (upd w f ⟨(w f).fut, .thenAppend f r⟩) tasks n m []
  | thenLate (f r : Nat) (v : V) (hp : (w f).pc = .thenLate f r) (hv : (w f).fut.result = some v) :
      TrV w tasks n m (upd w f ⟨(w f).fut, .thenNew f r⟩) (tasks ++ [⟨r, v, none⟩]) n m []
  | thenNew (f r : Nat) (hp : (w f).pc = .thenNew f r) :
      TrV w tasks n m (upd w f ⟨(w f).fut, .unlock f⟩) tasks n (m + 1) [.child r m]
  | thenAppend (f r : Nat) (x : Fut V) (hp : (w f).pc = .thenAppend f r)
      (hx : x.done = (w f).fut.done ∧ x.result = (w f).fut.result ∧
        x.cbs = (w f).fut.cbs ++ [(r, m)]) :
      TrV w tasks n m (upd w f ⟨x, .unlock f⟩) tasks n (m + 1) [.child r m]
  | unlock (f : Nat) (x : Fut V) (hp : (w f).pc = .unlock f)
      (hx : x.done = (w f).fut.done ∧ x.result = (w f).fut.result ∧ x.cbs = (w f).fut.cbs) :
      TrV w tasks n m (upd w f ⟨x, .idle⟩) tasks n m []
  | compDone (f : Nat) (v : V) (hp : (w f).pc = .compCheck f v) (hd : (w f).fut.done = true) :
      TrV w tasks n m (upd w f ⟨(w f).fut, .unlock f⟩) tasks n m []
  | compFirst (f : Nat) (v : V) (hp : (w f).pc = .compCheck f v) (hd : (w f).fut.done = false) :
      TrV w tasks n m (upd w f ⟨(w f).fut, .compSet f v⟩) tasks n m []
  | compSet (f : Nat) (v : V) (x : Fut V) (hp : (w f).pc = .compSet f v)
      (hx : x.done = (w f).fut.done ∧ x.result = some v ∧ x.cbs = (w f).fut.cbs) :
      TrV w tasks n m (upd w f ⟨x, .compClose f v⟩) tasks n m []
  | compClose (f : Nat) (v : V) (x : Fut V) (hp : (w f).pc = .compClose f v)
      (hx : x.done = true ∧ x.result = (w f).fut.result ∧ x.cbs = (w f).fut.cbs) :
      TrV w tasks n m (upd w f ⟨x, .compSpawn f (w f).fut.cbs⟩) tasks n m []
  | compClear (f : Nat) (x : Fut V) (hp : (w f).pc = .compSpawn f [])
      (hx : x.done = (w f).fut.done ∧ x.result = (w f).fut.result ∧ x.cbs = []) :
      TrV w tasks n m (upd w f ⟨x, .unlock f⟩) tasks n m []
  | compSpawn (f r c : Nat) (rest : List (Nat × Nat)) (v : V)
      (hp : (w f).pc = .compSpawn f ((r, c) :: rest)) (hv : (w f).fut.result = some v) :
      TrV w tasks n m (upd w f ⟨(w f).fut, .compSpawn f rest⟩) (tasks ++ [⟨r, v, some c⟩]) n m []
  | start (tk : Task V) (hk : tk ∈ tasks) : TrV w tasks n m w tasks n m [.start tk.reg tk.arg]
  | finish (tk : Task V) (hk : tk ∈ tasks) : TrV w tasks n m w tasks n m [.finish tk.reg tk.arg]

theorem view_pc {s : St V} (A : InvA s) {t : Tid} {f : Nat} (h : (s.pc t).inside = some f) :
    (view s f).pc = s.pc t := by
  have := (A.lk t f).1 h
  simp [view, holder, this]

/-- A step of goroutine `t` holding (before and after) the mutex of `f`. -/
theorem view_inside {s : St V} (A : InvA s) {t : Tid} {f : Nat} (h : (s.pc t).inside = some f)
    (x : Fut V) (hx : x.lock = (s.fut f).lock) (p : Pc V) (tasks : List (Task V)) (n m : Nat) :
    view ⟨upd s.fut f x, m, n, tasks, upd s.pc t p⟩ = upd (view s) f ⟨x, p⟩ := by
  have hl := (A.lk t f).1 h
  funext g
  by_cases e : g = f
  · subst e; simp [view, holder, hx, hl]
  · simp only [view, holder, upd_of_ne _ _ e]
    cases hg : (s.fut g).lock with
    | none => rfl
    | some t' =>
      have : t' ≠ t := by
        rintro rfl
        have := (A.lk t' g).2 hg
        rw [h] at this; exact e (Option.some.inj this).symm
      simp [upd_of_ne _ _ this]

/-- A step of a goroutine that holds no mutex, before and after. -/
theorem view_outside {s : St V} (A : InvA s) {t : Tid} (h : (s.pc t).inside = none)
    (p : Pc V) (tasks : List (Task V)) (n m : Nat) :
    view ⟨s.fut, m, n, tasks, upd s.pc t p⟩ = view s := by
  funext g
  simp only [view, holder]
  cases hg : (s.fut g).lock with
  | none => rfl
  | some t' =>
    have : t' ≠ t := by
      rintro rfl
      have := (A.lk t' g).2 hg
      rw [h] at this; cases this
    simp [upd_of_ne _ _ this]

/-- Taking the mutex. -/
theorem view_lock {s : St V} (A : InvA s) {t : Tid} {f : Nat} (h : (s.pc t).inside = none)
    (x : Fut V) (hx : x.lock = some t) (p : Pc V) (tasks : List (Task V)) (n m : Nat) :
    view ⟨upd s.fut f x, m, n, tasks, upd s.pc t p⟩ = upd (view s) f ⟨x, p⟩ := by
  funext g
  by_cases e : g = f
  · subst e; simp [view, holder, hx]
  · simp only [view, holder, upd_of_ne _ _ e]
    cases hg : (s.fut g).lock with
    | none => rfl
    | some t' =>
      have : t' ≠ t := by
        rintro rfl
        have := (A.lk t' g).2 hg
        rw [h] at this; cases this
      simp [upd_of_ne _ _ this]

/-- Releasing the mutex. -/
theorem view_unlock {s : St V} (A : InvA s) {t : Tid} {f : Nat} (h : (s.pc t).inside = some f)
    (x : Fut V) (hx : x.lock = none) (tasks : List (Task V)) (n m : Nat) :
    view ⟨upd s.fut f x, m, n, tasks, upd s.pc t .idle⟩ = upd (view s) f ⟨x, .idle⟩ := by
  funext g
  by_cases e : g = f
  · subst e; simp [view, holder, hx]
  · simp only [view, holder, upd_of_ne _ _ e]
    cases hg : (s.fut g).lock with
    | none => rfl
    | some t' =>
      have : t' ≠ t := by
        rintro rfl
        have := (A.lk t' g).2 hg
        rw [h] at this; exact e (Option.some.inj this).symm
      simp [upd_of_ne _ _ this]

theorem upd_self {β : Type} (f : Nat → β) (a : Nat) : upd f a (f a) = f := by
  funext x; by_cases h : x = a
  · subst h; simp
  · simp [upd_of_ne _ _ h]

theorem spawn_view {s : St V} (A : InvA s) (k : Task V) : view (spawn s k) = view s :=
  view_outside A (by rw [A.tl _ (Nat.le_refl _)]; rfl) _ _ _ _

/-- A step of `t` inside `f` that does not change the record. -/
theorem view_pcOnly {s : St V} (A : InvA s) {t : Tid} {f : Nat} (h : (s.pc t).inside = some f)
    (p : Pc V) : view (setPc s t p) = upd (view s) f ⟨s.fut f, p⟩ := by
  have := view_inside A h (s.fut f) rfl p s.tasks s.nreg s.nfut
  rw [upd_self] at this
  exact this

/-- The same with a new goroutine. -/
theorem view_spawn {s : St V} (A : InvA s) {t : Tid} {f : Nat} (h : (s.pc t).inside = some f)
    (p : Pc V) (k : Task V) : view (setPc (spawn s k) t p) = upd (view s) f ⟨s.fut f, p⟩ := by
  have hne : t ≠ .inr s.tasks.length := by
    rintro rfl; rw [A.tl _ (Nat.le_refl _)] at h; cases h
  have hl := (A.lk t f).1 h
  funext g
  by_cases e : g = f
  · subst e; simp [view, holder, setPc, spawn, hl]
  · simp only [view, holder, setPc, spawn, upd_of_ne _ _ e]
    cases hg : (s.fut g).lock with
    | none => rfl
    | some t' =>
      have h1 : t' ≠ t := by
        rintro rfl
        have := (A.lk t' g).2 hg
        rw [h] at this; exact e (Option.some.inj this).symm
      have h2 : t' ≠ .inr s.tasks.length := by
        rintro rfl
        have := (A.lk _ g).2 hg
        rw [A.tl _ (Nat.le_refl _)] at this; cases this
      simp [upd_of_ne _ _ h1, upd_of_ne _ _ h2]

theorem tr_view {s s' : St V} {evs : List (Ev V)} (A : InvA s) (ht : Tr s s' evs) :
    TrV (view s) s.tasks s.nreg s.nfut (view s') s'.tasks s'.nreg s'.nfut evs := by
  have hal := alloc_eq A
  have hidle : ∀ f, (s.fut f).lock = none → (view s f).pc = .idle := by
    intro f h; simp [view, holder, h]
  cases ht
  case new => rw [hal]; exact .new
  case thenLock u f hf hp hl =>
    have := view_lock A (t := .inl u) (f := f) (by rw [hp]; rfl) { s.fut f with lock := some (.inl u) } rfl
      (.thenCheck f s.nreg) s.tasks (s.nreg + 1) s.nfut
    simp only [setPc, setFut]
    rw [this]
    exact .thenLock f _ (hidle f hl) hl ⟨rfl, rfl, rfl⟩
  case compLock u f v hf hp hl =>
    have := view_lock A (t := .inl u) (f := f) (by rw [hp]; rfl) { s.fut f with lock := some (.inl u) } rfl
      (.compCheck f v) s.tasks s.nreg s.nfut
    simp only [setPc, setFut]
    rw [this]
    exact .compLock _ f v _ (hidle f hl) hl ⟨rfl, rfl, rfl⟩
  case obs f => exact .obs f
  case thenDone t f r hp hd =>
    have hi : (s.pc t).inside = some f := by rw [hp]; rfl
    rw [view_pcOnly A hi]
    exact .thenDone f r ((view_pc A hi).trans hp) hd
  case thenPend t f r hp hd =>
    have hi : (s.pc t).inside = some f := by rw [hp]; rfl
    rw [view_pcOnly A hi]
    exact .thenPend f r ((view_pc A hi).trans hp) hd
  case thenLate t f r v hp hv =>
    have hi : (s.pc t).inside = some f := by rw [hp]; rfl
    rw [view_spawn A hi]
    exact .thenLate f r v ((view_pc A hi).trans hp) hv
  case thenNew t f r hp =>
    have hi : (s.pc t).inside = some f := by rw [hp]; rfl
    rw [hal]
    have := view_inside A hi (s.fut f) rfl (.unlock f) s.tasks s.nreg (s.nfut + 1)
    rw [upd_self] at this
    simp only [setPc]
    rw [this]
    exact .thenNew f r ((view_pc A hi).trans hp)
  case thenAppend t f r hp =>
    have hi : (s.pc t).inside = some f := by rw [hp]; rfl
    rw [hal]
    simp only [setPc, setFut]
    rw [view_inside A hi { s.fut f with cbs := (s.fut f).cbs ++ [(r, s.nfut)] } rfl]
    exact .thenAppend f r _ ((view_pc A hi).trans hp) ⟨rfl, rfl, rfl⟩
  case unlock t f hp =>
    have hi : (s.pc t).inside = some f := by rw [hp]; rfl
    simp only [setPc, setFut]
    rw [view_unlock A hi { s.fut f with lock := none } rfl]
    exact .unlock f _ ((view_pc A hi).trans hp) ⟨rfl, rfl, rfl⟩
  case compDone t f v hp hd =>
    have hi : (s.pc t).inside = some f := by rw [hp]; rfl
    rw [view_pcOnly A hi]
    exact .compDone f v ((view_pc A hi).trans hp) hd
  case compFirst t f v hp hd =>
    have hi : (s.pc t).inside = some f := by rw [hp]; rfl
    rw [view_pcOnly A hi]
    exact .compFirst f v ((view_pc A hi).trans hp) hd
  case compSet t f v hp =>
    have hi : (s.pc t).inside = some f := by rw [hp]; rfl
    simp only [setPc, setFut]
    rw [view_inside A hi { s.fut f with result := some v } rfl]
    exact .compSet f v _ ((view_pc A hi).trans hp) ⟨rfl, rfl, rfl⟩
  case compClose t f v hp =>
    have hi : (s.pc t).inside = some f := by rw [hp]; rfl
    simp only [setPc, setFut]
    rw [view_inside A hi { s.fut f with done := true } rfl]
    exact .compClose f v _ ((view_pc A hi).trans hp) ⟨rfl, rfl, rfl⟩
  case compClear t f hp =>
    have hi : (s.pc t).inside = some f := by rw [hp]; rfl
    simp only [setPc, setFut]
    rw [view_inside A hi { s.fut f with cbs := [] } rfl]
    exact .compClear f _ ((view_pc A hi).trans hp) ⟨rfl, rfl, rfl⟩
  case compSpawn t f r c rest v hp hv =>
    have hi : (s.pc t).inside = some f := by rw [hp]; rfl
    rw [view_spawn A hi]
    exact .compSpawn f r c rest v ((view_pc A hi).trans hp) hv
  case start k tk hp hk =>
    have := view_outside A (t := .inr k) (by rw [hp]; rfl) .running s.tasks s.nreg s.nfut
    simp only [setPc]
    rw [this]
    exact .start tk (List.mem_of_getElem? hk)
  case finishLast k tk hp hk hc =>
    have := view_outside A (t := .inr k) (by rw [hp]; rfl) .idle s.tasks s.nreg s.nfut
    simp only [setPc]
    rw [this]
    exact .finish tk (List.mem_of_getElem? hk)
  case finishJoin k tk c hp hk hc =>
    have := view_outside A (t := .inr k) (by rw [hp]; rfl) .joining s.tasks s.nreg s.nfut
    simp only [setPc]
    rw [this]
    exact .finish tk (List.mem_of_getElem? hk)
  case join k tk c hp hk hc hl =>
    have := view_lock A (t := .inr k) (f := c) (by rw [hp]; rfl)
      { s.fut c with lock := some (.inr k) } rfl (.compCheck c tk.arg) s.tasks s.nreg s.nfut
    simp only [setPc, setFut]
    rw [this]
    exact .compLock _ c tk.arg _ (hidle c hl) hl ⟨rfl, rfl, rfl⟩

end Braid.Future
