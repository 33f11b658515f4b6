import Verif.Context.Model

/-
C133, the context of an actor: a value that was replaced stays reachable.
-/
namespace Braid.Context

/-! ### Specification -/

/-- The context of an actor, after the values `kvs` were set by `WithValue` in that order. -/
def sets (c : Ctx) : List (Key × Val) → Ctx
  | [] => c
  | (k, v) :: t => sets (ctxWithValue c k v) t

/-- The keys that `WithValue` takes. -/
def Settable : Key → Bool
  | .null => false
  | .user _ false _ => false
  | _ => true

/-- The values that the context keeps alive on top of the one given to `Init`. -/
def kept (c : Ctx) : List Val := c.top.map Prod.snd

/-! ### Theorems -/

theorem sets_top (c : Ctx) (kvs : List (Key × Val)) :
    (sets c kvs).top = (kvs.filter fun kv => Settable kv.1).reverse ++ c.top ∧ (sets c kvs).base = c.base := by
  induction kvs generalizing c with
  | nil => exact ⟨rfl, rfl⟩
  | cons kv t ih =>
    obtain ⟨k, v⟩ := kv
    obtain ⟨h1, h2⟩ := ih (ctxWithValue c k v)
    simp only [sets]
    rw [h1, h2]
    match k with
    | .null => simp [ctxWithValue, withValue, Settable]
    | .user _ false _ => simp [ctxWithValue, withValue, Settable]
    | .user _ true _ => simp [ctxWithValue, withValue, Settable]
    | .actor => simp [ctxWithValue, withValue, Settable]
    | .system => simp [ctxWithValue, withValue, Settable]

/-- C133, the part that holds. The context keeps the actor, the system and what was set with keys that are taken, and
nothing else: a value whose `WithValue` panicked is not kept. -/
theorem C133_context_partial (base : Key → Option Val) (a s : Nat) (kvs : List (Key × Val)) :
    kept (sets (make base a s) kvs) =
      ((kvs.filter fun kv => Settable kv.1).map Prod.snd).reverse ++ [.actor a, .sys s] := by
  rw [kept, (sets_top _ _).1]
  simp [make]

/-- C133 is false for contexts. However often one key is set, all the values are kept, though only the last one can be
read: an actor that counts in its context grows with every message. -/
theorem C133_context_refuted (base : Key → Option Val) (a s ty n : Nat) (vs : List Val) (v : Val) :
    ∃ c, c = sets (make base a s) ((vs ++ [v]).map fun v => (Key.user ty true (.plain n), v)) ∧
      getValue c (.user ty true (.plain n)) = .ok (some v) ∧ (∀ w ∈ vs, w ∈ kept c) ∧
      (kept c).length = vs.length + 3 := by
  refine ⟨_, rfl, ?_, ?_, ?_⟩
  · rw [getValue, (sets_top _ _).1]
    simp [List.filter_append, Settable, look, eq]
  · intro w hw
    rw [C133_context_partial]
    simp [List.filter_append, Settable, List.filter_map, Function.comp_def]
    exact .inr (.inl hw)
  · rw [C133_context_partial]
    simp [Settable, List.filter_map, Function.comp_def]

/-- Three values of one key: the first two are kept. -/
example : kept (sets (make (fun _ => none) 1 2) [(.user 0 true (.plain 5), .user 7), (.user 0 true (.plain 5), .user 8),
    (.null, .user 4), (.user 0 true (.plain 5), .user 9)]) = [.user 9, .user 8, .user 7, .actor 1, .sys 2] := by
  decide +kernel

end Braid.Context
