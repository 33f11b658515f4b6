/-
What a cron field denotes (C54), independently of the parser.
-/
namespace Braid.Cron.Spec

/-- A kind of field: the smallest and the largest number that may be written, and the number of values before the
values repeat (weekdays: 0 to 7 may be written, there are 7). -/
structure Range where
  lo : Nat
  hi : Nat
  period : Nat

/-- The number that a sequence of digits denotes. -/
inductive Numeral : List Char → Nat → Prop
  | one (d : Nat) : d < 10 → Numeral [Char.ofNat (48 + d)] d
  | more {l : List Char} {n : Nat} (d : Nat) : Numeral l n → d < 10 → Numeral (l ++ [Char.ofNat (48 + d)]) (10 * n + d)

/-- An element of the list: a value or a range. -/
inductive Item
  | value (v : Nat)
  | range (a b : Nat)

/-- The written form of an element. -/
inductive ItemText : Item → List Char → Prop
  | value {l v} : Numeral l v → ItemText (.value v) l
  | range {l1 l2 a b} : Numeral l1 a → Numeral l2 b → ItemText (.range a b) (l1 ++ '-' :: l2)

/-- The written form of a list: elements separated by commas. -/
inductive ListText : List Item → List Char → Prop
  | one {i l} : ItemText i l → ListText [i] l
  | more {i l is ls} : ItemText i l → ListText is ls → ListText (i :: is) (l ++ ',' :: ls)

/-- What stands before the step. -/
inductive Body
  | star
  | list (is : List Item)

inductive BodyText : Body → List Char → Prop
  | star : BodyText .star ['*']
  | list {is l} : ListText is l → BodyText (.list is) l

/-- A field: a body, and a step that applies to `*` and to each range. -/
structure Field where
  body : Body
  step : Nat

/-- The written form of a field; no step means step 1. -/
inductive FieldText : Field → List Char → Prop
  | plain {b l} : BodyText b l → FieldText ⟨b, 1⟩ l
  | step {b l n ns} : BodyText b l → Numeral ns n → FieldText ⟨b, n⟩ (l ++ '/' :: ns)

/-- The numbers are in the range of the kind. -/
def Item.Ok (r : Range) : Item → Prop
  | .value v => r.lo ≤ v ∧ v ≤ r.hi
  | .range a b => r.lo ≤ a ∧ a ≤ r.hi ∧ r.lo ≤ b ∧ b ≤ r.hi

def Field.Ok (r : Range) (f : Field) : Prop :=
  1 ≤ f.step ∧ match f.body with
    | .star => True
    | .list is => ∀ i ∈ is, i.Ok r

/-- `x` is one of the values `a, a + n, a + 2n, …` up to `b`. -/
def Steps (a b n x : Nat) : Prop := ∃ k, x = a + k * n ∧ x ≤ b

/-- The values of an element. A range `a-b` with `b < a` goes on after the largest value with the smallest one. -/
def Item.Has (r : Range) (n : Nat) : Item → Nat → Prop
  | .value v, x => x = v
  | .range a b, x => if a ≤ b then Steps a b n x else ∃ k, a + k * n ≤ b + r.period ∧ (a + k * n = x ∨ a + k * n = x + r.period) ∧ x ≤ r.hi

/-- The numbers that the field denotes. -/
def Field.Numbers (r : Range) (f : Field) (x : Nat) : Prop :=
  match f.body with
  | .star => Steps r.lo r.hi f.step x
  | .list is => ∃ i ∈ is, i.Has r f.step x

/-- A value of the time is denoted if it, or for weekdays a number that means the same, is among the numbers. -/
def Field.Denotes (r : Range) (f : Field) (x : Nat) : Prop :=
  ∃ y, f.Numbers r y ∧ y % r.period = x % r.period ∧ r.lo ≤ y ∧ y ≤ r.hi

/-- An element with a range that wraps around written as two ranges. -/
def Item.unwrap (r : Range) : Item → List Item
  | .value v => [.value v]
  | .range a b => if a ≤ b then [.range a b] else [.range a r.hi, .range r.lo b]

/-- A field with all ranges that wrap around written as two ranges, each with the step of the field. -/
def Field.unwrap (r : Range) (f : Field) : Field :=
  ⟨match f.body with
    | .star => .star
    | .list is => .list (is.flatMap (Item.unwrap r)), f.step⟩

/-- No range of the field wraps around with a step. -/
def Field.Straight (f : Field) : Prop :=
  f.step = 1 ∨ match f.body with
    | .star => True
    | .list is => ∀ i ∈ is, match i with
      | .value _ => True
      | .range a b => a ≤ b

end Braid.Cron.Spec
