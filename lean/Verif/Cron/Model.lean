/-
Model of cron fields: `lib/timer/timer_express.go` (`parseExpress`, `IsMatch`, `subString`).

Strings are lists of characters: valid UTF-8 is assumed. `int` is the 64-bit type. Loops run with a number of
steps that is given (`fuel`); `none` means that it was not enough, so that a loop that does not end is one for
which no number is enough. A map from ints to themselves is the list of its keys.
-/
namespace Braid.Cron

/-- timer_express.go:24-31; another type gives nil (L92-93), which is left out. -/
inductive Kind
  | weekday
  | month
  | day
  | hour
  | minute
  | second
deriving DecidableEq

/-- timer_express.go:9-22, 70-94. -/
def Kind.min : Kind → Int
  | .weekday => 0
  | .month => 1
  | .day => 1
  | .hour => 0
  | .minute => 0
  | .second => 0

/-- The largest value of a field. (lib/timer/timer_express.go:69-189) -/
def Kind.max : Kind → Int
  | .weekday => 7
  | .month => 12
  | .day => 31
  | .hour => 23
  | .minute => 59
  | .second => 59

/-- `strings.Index(s, c)`: the number of bytes before the first `c`. (lib/timer/timer_express.go:69-189) -/
def index (c : Char) : List Char → Nat
  | [] => 0
  | x :: l => if x = c then 0 else x.utf8Size + index c l

/-- timer_express.go:191-204 `subString` with `end = -1`; `begin` counts characters. -/
def subFrom (l : List Char) (begin : Nat) : List Char := if begin ≥ l.length then [] else l.drop begin

/-- timer_express.go:191-204 `subString` with `begin = 0`. -/
def subTo (l : List Char) (stop : Nat) : List Char :=
  if 0 ≥ l.length then [] else if stop > l.length then l else l.take stop

/-- The value of a character as a digit. (lib/timer/timer_express.go:69-189) -/
def digit (c : Char) : Nat := c.toNat - '0'.toNat

/-- The digits loop of `strconv.Atoi`. (lib/timer/timer_express.go:69-189) -/
def unsigned (l : List Char) : Option Nat :=
  if l ≠ [] ∧ l.all (fun c => decide ('0' ≤ c ∧ c ≤ '9')) then some (l.foldl (fun a c => 10 * a + digit c) 0)
  else none

/-- `strconv.Atoi`: optional sign, decimal digits, range of int64. (lib/timer/timer_express.go:69-189) -/
def atoi (l : List Char) : Option Int :=
  match l with
  | '-' :: r => match unsigned r with
    | some n => if n ≤ 2 ^ 63 then some (-(n : Int)) else none
    | none => none
  | '+' :: r => match unsigned r with
    | some n => if n < 2 ^ 63 then some n else none
    | none => none
  | r => match unsigned r with
    | some n => if n < 2 ^ 63 then some n else none
    | none => none

/-- `i + frequency` on int64. (lib/timer/timer_express.go:69-189) -/
def add64 (a b : Int) : Int := (a + b + 2 ^ 63) % 2 ^ 64 - 2 ^ 63

/-- `for i := first; i <= last; i = i + frequency { times.timeMap[i] = i }` (lib/timer/timer_express.go:69-189) -/
def loop (freq last : Int) : Nat → Int → List Int → Option (List Int)
  | 0, _, _ => none
  | fuel + 1, i, acc => if i ≤ last then loop freq last fuel (add64 i freq) (i :: acc) else some acc

/-- `strings.Split(s, ",")` (lib/timer/timer_express.go:69-189) -/
def split : List Char → List (List Char)
  | [] => [[]]
  | c :: l =>
    if c = ',' then [] :: split l
    else match split l with
      | [] => [[c]]
      | w :: ws => (c :: w) :: ws

/-- timer_express.go:119-172, the body of the loop over the items. -/
def item (k : Kind) (freq : Int) (fuel : Nat) (acc : List Int) (val : List Char) : Option (List Int) :=
  if val = [] then some acc -- L120
  else if '-' ∉ val then -- L124-131
    match atoi val with
    | some n => some (n :: acc)
    | none => some acc
  else
    match atoi (subTo val (index '-' val)), atoi (subFrom val (index '-' val + 1)) with -- L136-146
    | some first, some last =>
      if last > k.max ∨ last < k.min ∨ first < k.min ∨ first > k.max then some acc -- L147
      else if last ≥ first then loop freq last fuel first acc -- L153-159
      else -- L161-171
        match loop freq k.max fuel first acc with
        | some acc => loop freq last fuel k.min acc
        | none => none
    | _, _ => some acc

/-- timer_express.go:118-173 -/
def items (k : Kind) (freq : Int) (fuel : Nat) : List (List Char) → List Int → Option (List Int)
  | [], acc => some acc
  | v :: vs, acc =>
    match item k freq fuel acc v with
    | some acc => items k freq fuel vs acc
    | none => none

/-- timer_express.go:177-186 -/
def fixWeekday (k : Kind) (m : List Int) : List Int :=
  if k = .weekday ∧ 7 ∈ m then 0 :: m.filter (· ≠ 7) else m

/-- timer_express.go:109-187, after the frequency was taken off. -/
def parseBody (k : Kind) (freq : Int) (fuel : Nat) (e : List Char) : Option (List Int) :=
  (if e = ['*'] then loop freq k.max fuel k.min [] -- L110-113
   else items k freq fuel (split e) []).map (fixWeekday k)

/-- timer_express.go:69-189 `parseExpress`. `some none`: the result is nil; `some (some m)`: the set with the map
`m`; `none`: not finished within the given number of steps of each loop. -/
def parse (k : Kind) (fuel : Nat) (e : List Char) : Option (Option (List Int)) :=
  if '/' ∈ e then -- L101-107
    match atoi (subFrom e (index '/' e + 1)) with
    | none => some none
    | some freq => (parseBody k freq fuel (subTo e (index '/' e))).map some
  else (parseBody k 1 fuel e).map some

/-- timer_express.go:39-62 `IsMatch`, for the component `v` of the time that belongs to the kind. -/
def isMatch (m : List Int) (v : Int) : Bool := decide (v ∈ m)

end Braid.Cron
