import Verif.Share.Model

/-
What the theorems about shared messages say, in terms of the history and of the contents that
can be read through a wrapper.
-/
namespace Braid.Share

/-- The wrapper that a wrapper got its request from: `Swap` hands it on. -/
def origin : List Ev → Nat → Nat
  | [], w => w
  | .swapped v v' :: h, w => origin h (if w = v' then v else w)
  | _ :: h, w => origin h w

/-- The wrapper `w` has the request that was made for `r` (history read from the latest event). -/
def Uses (h : List Ev) (w r : Nat) : Prop := origin h.reverse w = r

/-- What an event leaves as the event name in the request header of `r`, if it writes there.
`own` tells which wrappers have that request. -/
def writes (own : Nat → Nat) (r : Nat) : Ev → Option (Option String)
  | .made w => if w = r then some (some "") else none
  | .stamped _ w _ ev => if own w = r then some (some ev) else none
  | .copied w h => if own w = r then some (some h.event) else none
  | .cleared w => if own w = r then some none else none
  | _ => none

/-- The event name that the history (latest event first) leaves in the request header of `r`. -/
def lastEvent (r : Nat) : List Ev → Option String
  | [] => none
  | e :: h => (writes (origin h) r e).getD (lastEvent r h)

/-- No request was given a header object of the caller (only possible after `WithReqHeader(nil)`). -/
def NoLink (h : List Ev) : Prop := ∀ w p, Ev.linked w p ∉ h

/-- A send, a copied header or a removed header: what can change the event of a request. -/
def touches : Ev → Option Nat
  | .stamped _ w _ _ => some w
  | .copied w _ => some w
  | .cleared w => some w
  | _ => none

/-- Header objects given to a message were made by the caller for that purpose and given once. -/
def linkOf (p : Nat) : Ev → Bool
  | .linked _ q => q = p
  | .resLinked _ (some q) => q = p
  | _ => false

/-- The discipline under which wrappers do not share headers: a header object that is given to a
message was made by the caller and is given to one message only. -/
def Once (h : List Ev) : Prop :=
  ∀ p, h.countP (linkOf p) ≤ 1 ∧ (0 < h.countP (linkOf p) → Ev.header p ∈ h)

/-- What can be read through a message pointer: the header and the body. -/
def look (s : State) (m : Nat) : Option Hdr × Bytes :=
  ((s.cell m).hp.map s.hdr, (s.cell m).body)

/-- The message that an action writes into, as a wrapper and whether it is the request. -/
def target : Act → Option (Nat × Bool)
  | .reqHeader w _ => some (w, true)
  | .reqBody w _ => some (w, true)
  | .reqCustom w _ => some (w, true)
  | .stamp _ w _ _ _ => some (w, true)
  | .resHeader w _ => some (w, false)
  | .resBody w _ => some (w, false)
  | .resCustom w _ => some (w, false)
  | _ => none

/-- The pointer `Req` or `Res` of a wrapper. -/
def side (s : State) (w : Nat) (isReq : Bool) : Nat := if isReq then (s.wr w).req else (s.wr w).res

/-- What an action makes of the header and the body of the message that it writes into; `heap` are
the header objects. -/
def written (heap : Nat → Hdr) : Act → Option Hdr × Bytes → Option Hdr × Bytes
  | .reqBody _ b, (h, _) => (h, b)
  | .resBody _ b, (h, _) => (h, b)
  | .reqCustom _ c, (h, b) => (h.map fun h => { h with custom := c }, b)
  | .resCustom _ c, (h, b) => (h.map fun h => { h with custom := c }, b)
  | .resHeader _ p, (_, b) => (p.map heap, b)
  | .reqHeader _ (some p), (some h, b) => (some { heap p with timestamp := h.timestamp }, b)
  | .reqHeader _ p, (_, b) => (p.map heap, b)
  | .stamp _ _ a ty ev, (h, b) =>
    (h.map fun h => { h with event := ev, targetActorID := a, targetActorType := ty }, b)
  | _, x => x

/-- The actions that need a header to write into. -/
def needsHeader : Act → Bool
  | .reqCustom _ _ => true
  | .resCustom _ _ => true
  | .stamp _ _ _ _ _ => true
  | _ => false

/-- No wrapper was made from another one, and no response was taken over from another one. -/
def NoShare (h : List Ev) : Prop := ∀ w w', Ev.swapped w w' ∉ h ∧ Ev.took w w' ∉ h

/-- A send of `w` to `a` by the goroutine `g`. -/
def isStamped (g w : Nat) (a : String) : Ev → Bool
  | .stamped g' w' a' _ => g' = g ∧ w' = w ∧ a' = a
  | _ => false

/-- The delivery of `w` into the mailbox of `a` by the goroutine `g`. -/
def isPushed (g w : Nat) (a : String) : Ev → Bool
  | .pushed g' w' a' => g' = g ∧ w' = w ∧ a' = a
  | _ => false

/-- A send of `w` to `a` by `g` that delivered nothing here. -/
def isDropped (g w : Nat) (a : String) : Ev → Bool
  | .dropped g' w' a' => g' = g ∧ w' = w ∧ a' = a
  | _ => false

/-- The delivery of `w` into the mailbox of `a` by any goroutine. -/
def isQueued (w : Nat) (a : String) : Ev → Bool
  | .pushed _ w' a' => w' = w ∧ a' = a
  | _ => false

/-- The handling of `w` by `a`. -/
def isHandled (w : Nat) (a : String) : Ev → Bool
  | .handled a' w' _ => w' = w ∧ a' = a
  | _ => false

/-- 1 while the goroutine `g` has written the header for a send of `w` to `a` and not yet delivered. -/
def pending (s : State) (g w : Nat) (a : String) : Nat :=
  match s.pc g with
  | .sending w' a' => if w' = w ∧ a' = a then 1 else 0
  | .idle => 0

end Braid.Share
