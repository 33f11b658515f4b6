import Verif.Lib.Lts

/-
Model of the transactions in the mock actors of the tests: the participants `tests/mock/mock_actor_b.go`,
`mock_actor_c.go` and the coordinator `tests/mock/mock_actor_a.go` (event `tcc_succ`).

Simplifications: transactions are numbers (new UUIDs never repeat). Status and time of a record are never read and left
out. The two participants differ in two numbers only.
-/
namespace Braid.Tcc

/-- A participant: the global variable, and `stateMap`, of whose records only `originValue` is read.
(tests/mock/mock_actor_b.go:18-21, tests/mock/mock_actor_c.go:16-19) -/
structure Part where
  value : Nat
  pend : Nat → Option Nat

/-- The messages of a participant. (tests/mock/mock_actor_b.go:30-125) -/
inductive Op
  | try_ (t : Nat)
  | confirm (t : Nat)
  | cancel (t : Nat)
deriving DecidableEq

/-- `mock_actor_b.go` L76-124 and `mock_actor_c.go` L52-101: a message, with the value that a try sets (111 and 222).
(tests/mock/mock_actor_b.go:76-124; tests/mock/mock_actor_c.go:52-101) -/
def step (new : Nat) (s : Part) : Op → Part
  | .try_ t => ⟨new, upd s.pend t (some s.value)⟩
  | .confirm t => match s.pend t with
    | some _ => { s with pend := upd s.pend t none }
    | none => s
  | .cancel t => match s.pend t with
    | some v => ⟨v, upd s.pend t none⟩
    | none => s

/-- Whether the handler returns nil. (tests/mock/mock_actor_b.go:30-125) -/
def succeeds (s : Part) : Op → Bool
  | .try_ _ => true
  | .confirm t => (s.pend t).isSome
  | .cancel t => (s.pend t).isSome

/-- A new participant. (tests/mock/mock_actor_b.go:23-28) -/
def init (v : Nat) : Part := ⟨v, fun _ => none⟩

/-- A sequence of messages. (tests/mock/mock_actor_b.go:30-125) -/
def runOps (v new : Nat) (ops : List Op) : Part := ops.foldl (step new) (init v)

/-! ### The coordinator

A call is sent, taken by the participant at any time or never, and returns with the result, or with an error (a timeout,
say) at any time. Several handlers run at once, as there may be several actors of the type.
-/

/-- A message on its way. (tests/mock/mock_actor_a.go:30-165) -/
inductive Msg
  | unsent
  | sent
  | taken (ok : Bool)
deriving DecidableEq

/-- `mock_actor_a.go` L119-164: where the handler of a transaction is, and what its calls have returned. Participant
`false` is b, participant `true` is c. (tests/mock/mock_actor_a.go:119-164) -/
inductive Pc
  | idle
  | tryB
  | tryC (b : Bool)
  | confB
  | confC (b : Bool)
  /-- the end of the handler by L157 -/
  | failed (b c : Bool)
  /-- the end of the handler after both confirms -/
  | finished (b c : Bool)
deriving DecidableEq

/-- The coordinators and the participants. (tests/mock/mock_actor_a.go:30-165) -/
structure State where
  part : Bool → Part
  pc : Nat → Pc
  /-- the try of a transaction at a participant -/
  tries : Nat → Bool → Msg
  /-- the confirm of a transaction at a participant -/
  confs : Nat → Bool → Msg

/-- Who takes the next step. (tests/mock/mock_actor_a.go:30-165) -/
inductive Act
  | start (t : Nat)
  /-- the participant takes the try -/
  | takeTry (t : Nat) (p : Bool)
  | takeConf (t : Nat) (p : Bool)
  /-- the call that the handler waits for returns nil -/
  | ret (t : Nat)
  /-- it returns an error: that of the participant, a timeout or another -/
  | err (t : Nat)
deriving DecidableEq

/-- Changes one entry. (tests/mock/mock_actor_a.go:30-165) -/
def upd2 {β : Type} (f : Nat → Bool → β) (t : Nat) (p : Bool) (b : β) : Nat → Bool → β :=
  fun u q => if u = t ∧ q = p then b else f u q

/-- The values that tries set. (tests/mock/mock_actor_a.go:30-165) -/
def newOf (p : Bool) : Nat := if p then 222 else 111

/-- The handler gets the result `ok` of the call it waits for and goes on (L128-159).
(tests/mock/mock_actor_a.go:128-161) -/
def goOn (s : State) (t : Nat) (ok : Bool) : State :=
  match s.pc t with
  | .tryB => { s with pc := upd s.pc t (.tryC ok), tries := upd2 s.tries t true .sent }                  -- L129
  | .tryC b =>
    if b && ok then { s with pc := upd s.pc t .confB, confs := upd2 s.confs t false .sent }              -- L133-136
    else { s with pc := upd s.pc t (.failed b ok) }                                                     -- L157
  | .confB => { s with pc := upd s.pc t (.confC ok), confs := upd2 s.confs t true .sent }                -- L146-147
  | .confC b => { s with pc := upd s.pc t (.finished b ok) }                                            -- L161
  | _ => s

/-- The call that the handler waits for, if any. (tests/mock/mock_actor_a.go:30-165) -/
def waitsFor (s : State) (t : Nat) : Option Msg :=
  match s.pc t with
  | .tryB => some (s.tries t false)
  | .tryC _ => some (s.tries t true)
  | .confB => some (s.confs t false)
  | .confC _ => some (s.confs t true)
  | _ => none

/-- tests/mock/mock_actor_a.go:123-128. -/
def cstep (s : State) : Act → Option (State × List Unit)
  | .start t =>
    if s.pc t = .idle then
      some ({ s with pc := upd s.pc t .tryB, tries := upd2 s.tries t false .sent }, [])                  -- L123-128
    else none
  | .takeTry t p =>
    if s.tries t p = .sent then
      some ({ s with part := upd s.part p (step (newOf p) (s.part p) (.try_ t)),
                     tries := upd2 s.tries t p (.taken (succeeds (s.part p) (.try_ t))) }, [])
    else none
  | .takeConf t p =>
    if s.confs t p = .sent then
      some ({ s with part := upd s.part p (step (newOf p) (s.part p) (.confirm t)),
                     confs := upd2 s.confs t p (.taken (succeeds (s.part p) (.confirm t))) }, [])
    else none
  | .ret t =>
    if waitsFor s t = some (.taken true) then some (goOn s t true, []) else none
  | .err t =>
    if (waitsFor s t).isSome then some (goOn s t false, []) else none

/-- The system. (tests/mock/mock_actor_a.go:30-165) -/
def sys : Lts State Act Unit :=
  ⟨⟨fun p => init (if p then 22 else 11), fun _ => .idle, fun _ _ => .unsent, fun _ _ => .unsent⟩, cstep⟩

end Braid.Tcc
