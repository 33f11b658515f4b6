import Verif.Future.Spec

/-
The transitions of the future model as a relation, for case analysis.
-/
namespace Braid.Future
variable {V : Type}

/-- Allocation of a future. -/
def alloc (s : St V) : St V := { s with fut := upd s.fut s.nfut (newFut V), nfut := s.nfut + 1 }

inductive Tr (s : St V) : St V → List (Ev V) → Prop
  | new : Tr s (alloc s) []
  | thenLock (u f : Nat) (hf : f < s.nfut) (hp : s.pc (.inl u) = .idle) (hl : (s.fut f).lock = none) :
      Tr s (setPc (setFut { s with nreg := s.nreg + 1 } f { s.fut f with lock := some (.inl u) })
        (.inl u) (.thenCheck f s.nreg)) [.then_ s.nreg f]
  | compLock (u f : Nat) (v : V) (hf : f < s.nfut) (hp : s.pc (.inl u) = .idle)
      (hl : (s.fut f).lock = none) :
      Tr s (setPc (setFut s f { s.fut f with lock := some (.inl u) }) (.inl u) (.compCheck f v))
        [.complete (.inl u) f v]
  | obs (f : Nat) : Tr s s [.obs f (s.fut f).done]
  | thenDone (t : Tid) (f r : Nat) (hp : s.pc t = .thenCheck f r) (hd : (s.fut f).done = true) :
      Tr s (setPc s t (.thenLate f r)) []
  | thenPend (t : Tid) (f r : Nat) (hp : s.pc t = .thenCheck f r) (hd : (s.fut f).done = false) :
      Tr s (setPc s t (.thenAppend f r)) []
  | thenLate (t : Tid) (f r : Nat) (v : V) (hp : s.pc t = .thenLate f r)
      (hv : (s.fut f).result = some v) :
      Tr s (setPc (spawn s ⟨r, v, none⟩) t (.thenNew f r)) []
  | thenNew (t : Tid) (f r : Nat) (hp : s.pc t = .thenNew f r) :
      Tr s (setPc (alloc s) t (.unlock f)) [.child r s.nfut]
  | thenAppend (t : Tid) (f r : Nat) (hp : s.pc t = .thenAppend f r) :
      Tr s (setPc (setFut (alloc s) f { s.fut f with cbs := (s.fut f).cbs ++ [(r, s.nfut)] }) t
        (.unlock f)) [.child r s.nfut]
  | unlock (t : Tid) (f : Nat) (hp : s.pc t = .unlock f) :
      Tr s (setPc (setFut s f { s.fut f with lock := none }) t .idle) []
  | compDone (t : Tid) (f : Nat) (v : V) (hp : s.pc t = .compCheck f v)
      (hd : (s.fut f).done = true) : Tr s (setPc s t (.unlock f)) []
  | compFirst (t : Tid) (f : Nat) (v : V) (hp : s.pc t = .compCheck f v)
      (hd : (s.fut f).done = false) : Tr s (setPc s t (.compSet f v)) []
  | compSet (t : Tid) (f : Nat) (v : V) (hp : s.pc t = .compSet f v) :
      Tr s (setPc (setFut s f { s.fut f with result := some v }) t (.compClose f v)) []
  | compClose (t : Tid) (f : Nat) (v : V) (hp : s.pc t = .compClose f v) :
      Tr s (setPc (setFut s f { s.fut f with done := true }) t (.compSpawn f (s.fut f).cbs)) []
  | compClear (t : Tid) (f : Nat) (hp : s.pc t = .compSpawn f []) :
      Tr s (setPc (setFut s f { s.fut f with cbs := [] }) t (.unlock f)) []
  | compSpawn (t : Tid) (f r c : Nat) (rest : List (Nat × Nat)) (v : V)
      (hp : s.pc t = .compSpawn f ((r, c) :: rest)) (hv : (s.fut f).result = some v) :
      Tr s (setPc (spawn s ⟨r, v, some c⟩) t (.compSpawn f rest)) []
  | start (k : Nat) (tk : Task V) (hp : s.pc (.inr k) = .ready) (hk : s.tasks[k]? = some tk) :
      Tr s (setPc s (.inr k) .running) [.start tk.reg tk.arg]
  | finishLast (k : Nat) (tk : Task V) (hp : s.pc (.inr k) = .running) (hk : s.tasks[k]? = some tk)
      (hc : tk.child = none) : Tr s (setPc s (.inr k) .idle) [.finish tk.reg tk.arg]
  | finishJoin (k : Nat) (tk : Task V) (c : Nat) (hp : s.pc (.inr k) = .running)
      (hk : s.tasks[k]? = some tk)
      (hc : tk.child = some c) : Tr s (setPc s (.inr k) .joining) [.finish tk.reg tk.arg]
  | join (k : Nat) (tk : Task V) (c : Nat) (hp : s.pc (.inr k) = .joining)
      (hk : s.tasks[k]? = some tk)
      (hc : tk.child = some c) (hl : (s.fut c).lock = none) :
      Tr s (setPc (setFut s c { s.fut c with lock := some (.inr k) }) (.inr k) (.compCheck c tk.arg))
        [.complete (.inr k) c tk.arg]

theorem step_tr {s s' : St V} {a : Act V} {evs : List (Ev V)} (hs : step s a = some (s', evs)) :
    Tr s s' evs := by
  cases a with
  | new => cases hs; exact .new
  | then_ u f =>
    simp only [step] at hs
    split at hs
    · rename_i hf
      split at hs
      · rename_i hp hl; cases hs; exact .thenLock u f hf hp hl
      · cases hs
    · cases hs
  | complete u f v =>
    simp only [step] at hs
    split at hs
    · rename_i hf
      split at hs
      · rename_i hp hl; cases hs; exact .compLock u f v hf hp hl
      · cases hs
    · cases hs
  | isCompleted f => cases hs; exact .obs f
  | next t =>
    simp only [step, stepNext] at hs
    split at hs
    case h_1 => cases hs
    case h_2 f r hp =>
      split at hs
      · rename_i hd; cases hs; exact .thenDone t f r hp hd
      · rename_i hd; cases hs; exact .thenPend t f r hp (by simpa using hd)
    case h_3 f r hp =>
      split at hs
      · rename_i v hv; cases hs; exact .thenLate t f r v hp hv
      · cases hs
    case h_4 f r hp => cases hs; exact .thenNew t f r hp
    case h_5 f r hp => cases hs; exact .thenAppend t f r hp
    case h_6 f hp => cases hs; exact .unlock t f hp
    case h_7 f v hp =>
      split at hs
      · rename_i hd; cases hs; exact .compDone t f v hp hd
      · rename_i hd; cases hs; exact .compFirst t f v hp (by simpa using hd)
    case h_8 f v hp => cases hs; exact .compSet t f v hp
    case h_9 f v hp => cases hs; exact .compClose t f v hp
    case h_10 f hp => cases hs; exact .compClear t f hp
    case h_11 f r c rest hp =>
      split at hs
      · rename_i v hv; cases hs; exact .compSpawn t f r c rest v hp hv
      · cases hs
    case h_12 hp =>
      split at hs
      · cases hs
      · split at hs
        · rename_i tk hk; cases hs; exact .start _ tk hp hk
        · cases hs
    case h_13 hp =>
      split at hs
      · cases hs
      · split at hs
        · rename_i tk hk
          split at hs
          · rename_i hc; cases hs; exact .finishLast _ tk hp hk hc
          · rename_i c hc; cases hs; exact .finishJoin _ tk c hp hk hc
        · cases hs
    case h_14 hp =>
      split at hs
      · cases hs
      · split at hs
        · rename_i r v c hk
          split at hs
          · rename_i hl; cases hs; exact .join _ ⟨r, v, some c⟩ c hp hk rfl hl
          · cases hs
        · cases hs

end Braid.Future
