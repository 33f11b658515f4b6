import Verif.Race.Spec
import Verif.Actor.Inv

/-
The plain variables of mailboxes and who uses them.
-/
namespace Braid.Race

/-- The fields of a queue and its nodes that are read and written without an atomic operation: `tail` of the queue and
`val` of the node at an address. (lib/mpsc/mpsc.go:14-23; `head`, `next` and `count` are used by atomic operations only) -/
inductive QVar
  | tail
  | val (n : Nat)
deriving DecidableEq

/-- The goroutines that use a queue. (lib/mpsc/mpsc.go:1-5) -/
inductive QWho
  | producer (p : Nat)
  | consumer
deriving DecidableEq

/-- Whose action it is. (lib/mpsc/mpsc.go:39-65) -/
def qwho {V : Type} : Mpsc.Act V → QWho
  | .push p _ => .producer p
  | .prod p => .producer p
  | _ => .consumer

/-- Which plain variables an operation of the queue uses. (lib/mpsc/mpsc.go:41: `n.val`; L55: `q.tail`; L58-60: `q.tail`
and `next.val`; the other operations are atomic) -/
def qacc {V : Type} (s : Mpsc.St V) : Mpsc.Act V → List (Acc QVar)
  | .push _ _ => [⟨.val s.fresh, true⟩]
  | .cons =>
    match s.cons with
    | .load => [⟨.tail, false⟩]
    | .take n => [⟨.tail, true⟩, ⟨.val n, true⟩]
    | _ => []
  | _ => []

/-- The plain variables of the two queues of an actor. (core/actor/actor_runtime_impl.go:25-42) -/
inductive AVar
  | mail (v : QVar)
  | reentry (v : QVar)
deriving DecidableEq

/-- The goroutines of an actor and those that use it. (core/actor/actor_runtime_impl.go:172-377) -/
inductive AWho
  | sender (p : Nat)
  | reenterer (p : Nat)
  | timer (t : Nat)
  | opener
  | loop
  | check
  | exiter (x : Nat)
deriving DecidableEq

/-- Whose action it is. (core/actor/actor_runtime_impl.go:172-377) -/
def awho : Actor.Act → AWho
  | .recv p _ => .sender p
  | .deliver p _ => .sender p
  | .send p => .sender p
  | .rpush p _ => .reenterer p
  | .rsend p => .reenterer p
  | .tick t => .timer t
  | .onEvent _ => .opener
  | .select _ => .loop
  | .loop => .loop
  | .ended _ => .loop
  | .check _ => .check
  | .exit x => .exiter x
  | .exitWait x => .exiter x

def Acc.map {V W : Type} (f : V → W) (a : Acc V) : Acc W := ⟨f a.var, a.write⟩

/-- Which plain variables of the two queues an action uses. (core/actor/actor_runtime_impl.go:187, L274, L321, L349:
`Push` and `Pop`; L286: `Empty` reads `q.tail`, lib/mpsc/mpsc.go:71) -/
def aacc (s : Actor.State) : Actor.Act → List (Acc AVar)
  | .send p =>
    match s.snd p with
    | .push m => (qacc s.mb (.push p m)).map (Acc.map .mail)
    | _ => []
  | .rpush p r => (qacc s.rq (.push p r)).map (Acc.map .reentry)
  | .loop =>
    match s.loop with
    | .pop => (qacc s.mb .cons).map (Acc.map .mail)
    | .rpop => (qacc s.rq .cons).map (Acc.map .reentry)
    | _ => []
  | .check _ =>
    match s.chk with
    | .testQ => [⟨.mail .tail, false⟩]
    | .testR => [⟨.reentry .tail, false⟩]
    | _ => []
  | _ => []

end Braid.Race
