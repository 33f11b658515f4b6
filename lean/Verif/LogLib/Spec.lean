import Verif.LogLib.Model

/-
What log flows and log calls should do (C78, C79).
-/
namespace Braid.LogLib

/-- All fields of a flow: the common ones, then its own. -/
def all (f : Flow) : List Simple := match f.common with | some c => c ++ f.base | none => f.base

/-- The fields that belong into the object. -/
def inner (p : String → Bool) (fs : List Simple) : List Simple := fs.filter fun s => p s.key

/-- An object holds exactly the given fields: each of them, and no other names. -/
def ObjectOf (m : String → Option Nat) (fs : List Simple) : Prop :=
  (∀ s ∈ fs, m s.key = some s.val) ∧ ∀ k, (m k).isSome → ∃ s ∈ fs, s.key = k

/-- **C78**: the result holds every field once: those without `p` at the top level in order, the others in one object
under `key` at the end, if there are any. -/
def KeepsAll (f : Flow) (key : String) (p : String → Bool) : Prop :=
  ∃ tail, taDataFields f key p = ((all f).filter fun s => !p s.key).map (·.field) ++ tail ∧
    ((inner p (all f) = [] ∧ tail = []) ∨
      (inner p (all f) ≠ [] ∧ ∃ m, tail = [⟨key, .obj m⟩] ∧ ObjectOf m (inner p (all f))))

/-- **C79**: a call at a level writes exactly one record, of this level and with the tag, if the level is enabled, and
none otherwise. -/
def OneRecord (threshold level : Int) (o : Out) : Prop :=
  (threshold ≤ level → ∃ r, o.records = [r] ∧ r.level = level ∧ "ServerTag" ∈ r.keys) ∧ (level < threshold → o.records = [])

/-- **C79**: every record of the call has exactly these keys, none twice. -/
def HasKeys (o : Out) (ks : List String) : Prop := ∀ r ∈ o.records, r.keys.Nodup ∧ ∀ k, k ∈ r.keys ↔ k ∈ ks

/-- The levels of zap. -/
def IsLevel (l : Int) : Prop := -1 ≤ l ∧ l ≤ 5

end Braid.LogLib
