import Verif.Reporter.Model

/-
Specification of the span reporter (C59).
-/
namespace Braid.Reporter.Spec

def isQueued : Ev → Option Nat
  | .reported x true => some x
  | _ => none

def isDropped : Ev → Option Nat
  | .reported x false => some x
  | _ => none

def isDelivered : Ev → Option Nat
  | .delivered x => some x
  | _ => none

def isHandled : Ev → Option Nat
  | .delivered x => some x
  | .filtered x => some x
  | _ => none

def isSenderClosed : Ev → Option Nat
  | .senderClosed g => some g
  | _ => none

/-- The spans that were reported and not dropped, in order. -/
def queued (h : List Ev) : List Nat := h.filterMap isQueued

/-- The spans that were dropped. -/
def dropped (h : List Ev) : List Nat := h.filterMap isDropped

/-- The spans that were delivered, in order. -/
def delivered (h : List Ev) : List Nat := h.filterMap isDelivered

/-- The spans that were delivered or filtered, in order. -/
def handled (h : List Ev) : List Nat := h.filterMap isHandled

/-- The calls of `sender.Close`. -/
def senderCloses (h : List Ev) : List Nat := h.filterMap isSenderClosed

end Braid.Reporter.Spec
