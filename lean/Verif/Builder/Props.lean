import Verif.Builder.Spec
/-
C60: builder options are private to a builder.
-/
namespace Braid.Builder
open Spec

variable {F : String → Option Ctor} {h0 : Heap}

/-- What is assumed of the factory: each type has a map of its own, as in tests/mock/mock_factory.go:13-79. -/
structure Factory (F : String → Option Ctor) : Prop where
  map : ∀ ty c, F ty = some c → c.options ≠ none
  own : ∀ ty ty' c c', F ty = some c → F ty' = some c' → c.options = c'.options → ty = ty'

def known (F : String → Option Ctor) (ty : String) : Bool := (F ty).isSome

/-- The value of a key in the map of a type before any call. -/
def initial (F : String → Option Ctor) (h0 : Heap) (ty k : String) : String :=
  match F ty with
  | some c => match c.options with
    | some a => (h0 a k).getD ""
    | none => ""
  | none => ""

theorem run_snoc (s : State) (l : List Op) (o : Op) : run F s (l ++ [o]) = (run F s l).bind (step F · o) := by
  induction l generalizing s with
  | nil => simp only [List.nil_append, run, Option.bind_some]; cases step F s o <;> rfl
  | cons p l ih =>
    simp only [List.cons_append, run]
    cases step F s p with
    | none => rfl
    | some s1 => simp only [Option.bind_some]; exact ih s1

/-- Induction over the calls made. -/
theorem run_induct {s0 : State} {P : List Op → State → Prop} (h0 : P [] s0)
    (h1 : ∀ l s o s', run F s0 l = some s → P l s → step F s o = some s' → P (l ++ [o]) s') :
    ∀ (n : Nat) (l : List Op) (s : State), l.length = n → run F s0 l = some s → P l s := by
  intro n
  induction n with
  | zero =>
    intro l s hl hr
    cases l with
    | nil => cases hr; exact h0
    | cons _ _ => cases hl
  | succ n ih =>
    intro l s hl hr
    have hne : l ≠ [] := by rintro rfl; cases hl
    have e := List.dropLast_concat_getLast hne
    rw [← e, run_snoc, Option.bind_eq_some_iff] at hr
    obtain ⟨s1, hr1, hs⟩ := hr
    rw [← e]
    exact h1 _ _ _ _ hr1 (ih _ _ (by rw [List.length_dropLast]; omega) hr1) hs

/-- What is known of the builders after some calls. -/
structure Inv (F : String → Option Ctor) (h0 : Heap) (l : List Op) (s : State) : Prop where
  opts : s.builders.map (fun c => c.options) = (types (known F) l).map (fun ty => (F ty).bind (fun c => c.options))
  ids : ∀ b c, s.builders[b]? = some c → ∃ ty c0, (types (known F) l)[b]? = some ty ∧ F ty = some c0 ∧
    c.id = ownID b c0.id l
  idle : ∀ b, (types (known F) l)[b]? = none → ∀ o ∈ l, ∀ id, o ≠ .withID b id
  heap : ∀ ty c a k, F ty = some c → c.options = some a → (s.heap a k).getD "" =
    sharedOpt (fun b => (types (known F) l)[b]? == some ty) k ((h0 a k).getD "") l
  late : ∀ b, (types (known F) l)[b]? = none → ∀ o ∈ l, ∀ k v, o ≠ .withOpt b k v

theorem types_snoc (l : List Op) (o : Op) : types (known F) (l ++ [o]) = types (known F) l ++
    (match o with | .make ty => if known F ty then [ty] else [] | _ => []) := by
  unfold types
  rw [List.filterMap_append]
  congr 1
  cases o with
  | make ty => simp only [List.filterMap_cons]; split <;> rename_i h <;> split at h <;> simp_all
  | withID => rfl
  | withType => rfl
  | withOpt => rfl

theorem sharedOpt_snoc (bs : Nat → Bool) (k d : String) (l : List Op) (o : Op) :
    sharedOpt bs k d (l ++ [o]) = optStep bs k (sharedOpt bs k d l) o := by
  unfold sharedOpt
  rw [List.foldl_append]
  rfl

theorem sharedOpt_congr {bs bs' : Nat → Bool} (k d : String) (l : List Op)
    (h : ∀ o ∈ l, ∀ b v, o = .withOpt b k v → bs b = bs' b) : sharedOpt bs k d l = sharedOpt bs' k d l := by
  unfold sharedOpt
  induction l generalizing d with
  | nil => rfl
  | cons o l ih =>
    simp only [List.foldl_cons]
    have e : optStep bs k d o = optStep bs' k d o := by
      cases o with
      | withOpt b' k' v =>
        simp only [optStep]
        by_cases hk : k' = k
        · subst hk; rw [h _ List.mem_cons_self b' v rfl]
        · simp [hk]
      | make => rfl
      | withID => rfl
      | withType => rfl
    rw [e]
    exact ih _ (fun o ho => h o (List.mem_cons_of_mem _ ho))

theorem ownID_snoc (b : Nat) (d : String) (l : List Op) (o : Op) : ownID b d (l ++ [o]) = idStep b (ownID b d l) o := by
  unfold ownID
  rw [List.foldl_append]
  rfl

theorem ownID_none (b : Nat) (d : String) (l : List Op) (h : ∀ o ∈ l, ∀ id, o ≠ .withID b id) : ownID b d l = d := by
  unfold ownID
  induction l generalizing d with
  | nil => rfl
  | cons o l ih =>
    simp only [List.foldl_cons]
    have e : idStep b d o = d := by
      cases o with
      | withID b' id =>
        simp only [idStep]
        rw [if_neg]
        rintro rfl
        exact h _ List.mem_cons_self id rfl
      | make => rfl
      | withOpt => rfl
      | withType => rfl
    rw [e]
    exact ih _ (fun o ho => h o (List.mem_cons_of_mem _ ho))

theorem inv_step (hF : Factory F) {l : List Op} {s s' : State} {o : Op} (hi : Inv F h0 l s)
    (hs : step F s o = some s') : Inv F h0 (l ++ [o]) s' := by
  have hlen : s.builders.length = (types (known F) l).length := by
    have := congrArg List.length hi.opts; simpa using this
  cases o with
  | make ty =>
    simp only [step] at hs
    cases hf : F ty with
    | none =>
      simp only [hf] at hs
      cases hs
      have ht : types (known F) (l ++ [.make ty]) = types (known F) l := by
        rw [types_snoc]; simp [known, hf]
      refine ⟨by rw [ht]; exact hi.opts, ?_, ?_, ?_, ?_⟩
      · intro b c hb; rw [ht, ]; simp only [ownID_snoc, idStep]; exact hi.ids b c hb
      · intro b hb o ho id
        rw [ht] at hb
        rcases List.mem_append.1 ho with ho | ho
        · exact hi.idle b hb o ho id
        · rw [List.mem_singleton] at ho; rw [ho]; simp
      · intro ty' c a k hc ha; rw [ht]; simp only [sharedOpt_snoc, optStep]; exact hi.heap ty' c a k hc ha
      · intro b hb o ho k v
        rw [ht] at hb
        rcases List.mem_append.1 ho with ho | ho
        · exact hi.late b hb o ho k v
        · rw [List.mem_singleton] at ho; rw [ho]; simp
    | some c0 =>
      simp only [hf] at hs
      cases hs
      have ht : types (known F) (l ++ [.make ty]) = types (known F) l ++ [ty] := by
        rw [types_snoc]; simp [known, hf]
      have hnone : ∀ b : Nat, (types (known F) l ++ [ty])[b]? = none → (types (known F) l)[b]? = none := by
        intro b hb
        rw [List.getElem?_eq_none_iff] at hb ⊢
        rw [List.length_append] at hb; omega
      refine ⟨?_, ?_, ?_, ?_, ?_⟩
      · rw [ht, List.map_append, List.map_append, hi.opts]; simp [hf]
      · intro b c hb
        rw [ht]
        simp only [ownID_snoc, idStep]
        simp only [List.getElem?_append] at hb
        split at hb
        · rename_i hlt
          obtain ⟨ty', c', h1, h2, h3⟩ := hi.ids b c hb
          exact ⟨ty', c', by rw [List.getElem?_append_left (by omega)]; exact h1, h2, h3⟩
        · rename_i hlt
          have hb0 : b = s.builders.length := by
            have h := (List.getElem?_eq_some_iff.1 hb).1
            simp only [List.length_singleton] at h
            omega
          subst hb0
          simp only [Nat.sub_self, List.getElem?_cons_zero, Option.some.injEq] at hb
          subst hb
          refine ⟨ty, c0, by rw [hlen]; simp, hf, ?_⟩
          rw [ownID_none]
          exact hi.idle _ (by rw [List.getElem?_eq_none_iff]; omega)
      · intro b hb o ho id
        rw [ht] at hb
        rcases List.mem_append.1 ho with ho | ho
        · exact hi.idle b (hnone b hb) o ho id
        · rw [List.mem_singleton] at ho; rw [ho]; simp
      · intro ty' c a k hc ha
        rw [ht]
        simp only [sharedOpt_snoc, optStep]
        rw [hi.heap ty' c a k hc ha]
        apply sharedOpt_congr
        intro o ho b v hov
        by_cases hb : b < (types (known F) l).length
        · rw [List.getElem?_append_left hb]
        · exact absurd hov (hi.late b (by rw [List.getElem?_eq_none_iff]; omega) o ho k v)
      · intro b hb o ho k v
        rw [ht] at hb
        rcases List.mem_append.1 ho with ho | ho
        · exact hi.late b (hnone b hb) o ho k v
        · rw [List.mem_singleton] at ho; rw [ho]; simp
  | withID b0 id0 =>
    have ht : types (known F) (l ++ [.withID b0 id0]) = types (known F) l := by rw [types_snoc]; simp
    simp only [step] at hs
    split at hs
    · cases hs
    · rename_i c0 hc0
      split at hs
      · cases hs
      · cases hs
        have hlt : b0 < s.builders.length := (List.getElem?_eq_some_iff.1 hc0).1
        refine ⟨?_, ?_, ?_, ?_, ?_⟩
        · rw [ht, ← hi.opts, List.map_set]
          apply List.ext_getElem?
          intro i
          rw [List.getElem?_set]
          split
          · rename_i h; subst h
            have : s.builders[b0] = c0 := (List.getElem?_eq_some_iff.1 hc0).2
            simp [this, hlt]
          · rfl
        · intro b c hb
          rw [ht]
          simp only [ownID_snoc, idStep]
          rw [List.getElem?_set] at hb
          split at hb
          · rename_i h; subst h
            simp only [Option.some.injEq] at hb; subst hb
            obtain ⟨ty, c1, h1, h2, -⟩ := hi.ids b0 c0 hc0
            exact ⟨ty, c1, h1, h2, by simp⟩
          · rename_i h
            obtain ⟨ty, c1, h1, h2, h3⟩ := hi.ids b c hb
            exact ⟨ty, c1, h1, h2, by rw [if_neg h]; exact h3⟩
        · intro b hb o ho id
          rw [ht] at hb
          rcases List.mem_append.1 ho with ho | ho
          · exact hi.idle b hb o ho id
          · rw [List.mem_singleton] at ho; rw [ho]
            intro he
            cases he
            rw [List.getElem?_eq_none_iff] at hb
            omega
        · intro ty c a k hc ha; rw [ht]; simp only [sharedOpt_snoc, optStep]; exact hi.heap ty c a k hc ha
        · intro b hb o ho k v
          rw [ht] at hb
          rcases List.mem_append.1 ho with ho | ho
          · exact hi.late b hb o ho k v
          · rw [List.mem_singleton] at ho; rw [ho]; simp
  | withType b0 ty0 =>
    have ht : types (known F) (l ++ [.withType b0 ty0]) = types (known F) l := by rw [types_snoc]; simp
    simp only [step] at hs
    split at hs
    · cases hs
    · rename_i c0 hc0
      cases hs
      have hlt : b0 < s.builders.length := (List.getElem?_eq_some_iff.1 hc0).1
      refine ⟨?_, ?_, ?_, ?_, ?_⟩
      · rw [ht, ← hi.opts, List.map_set]
        apply List.ext_getElem?
        intro i
        rw [List.getElem?_set]
        split
        · rename_i h; subst h
          have : s.builders[b0] = c0 := (List.getElem?_eq_some_iff.1 hc0).2
          simp [this, hlt]
        · rfl
      · intro b c hb
        rw [ht]
        simp only [ownID_snoc, idStep]
        rw [List.getElem?_set] at hb
        split at hb
        · rename_i h; subst h
          simp only [Option.some.injEq] at hb; subst hb
          exact hi.ids b0 c0 hc0
        · exact hi.ids b c hb
      · intro b hb o ho id
        rw [ht] at hb
        rcases List.mem_append.1 ho with ho | ho
        · exact hi.idle b hb o ho id
        · rw [List.mem_singleton] at ho; rw [ho]; simp
      · intro ty c a k hc ha; rw [ht]; simp only [sharedOpt_snoc, optStep]; exact hi.heap ty c a k hc ha
      · intro b hb o ho k v
        rw [ht] at hb
        rcases List.mem_append.1 ho with ho | ho
        · exact hi.late b hb o ho k v
        · rw [List.mem_singleton] at ho; rw [ho]; simp
  | withOpt b0 k0 v0 =>
    have ht : types (known F) (l ++ [.withOpt b0 k0 v0]) = types (known F) l := by rw [types_snoc]; simp
    simp only [step] at hs
    split at hs
    · cases hs
    · rename_i c0 hc0
      split at hs
      · cases hs
      · rename_i a0 ha0
        cases hs
        have hlt : b0 < s.builders.length := (List.getElem?_eq_some_iff.1 hc0).1
        -- the type of the builder
        obtain ⟨ty0, c1, ht0, hf0, -⟩ := hi.ids b0 c0 hc0
        have ho0 : c1.options = some a0 := by
          have h1 := congrArg (fun l => l[b0]?) hi.opts
          simp only [List.getElem?_map, hc0, ht0, Option.map_some, hf0, Option.bind_some, Option.some.injEq] at h1
          rw [← h1]; exact ha0
        refine ⟨by rw [ht]; exact hi.opts, ?_, ?_, ?_, ?_⟩
        · intro b c hb; rw [ht]; simp only [ownID_snoc, idStep]; exact hi.ids b c hb
        · intro b hb o ho id
          rw [ht] at hb
          rcases List.mem_append.1 ho with ho | ho
          · exact hi.idle b hb o ho id
          · rw [List.mem_singleton] at ho; rw [ho]; simp
        · intro ty c a k hc ha
          rw [ht]
          simp only [sharedOpt_snoc, optStep, ht0, write]
          by_cases hty : ty0 = ty
          · subst hty
            rw [hf0] at hc
            cases hc
            rw [ho0] at ha
            cases ha
            by_cases hk : k = k0
            · simp [hk]
            · rw [if_neg (by simp [hk]), if_neg (by simp; exact fun h => hk h.symm)]
              exact hi.heap ty0 c1 a0 k hf0 ho0
          · have hne : a ≠ a0 := by
              rintro rfl
              exact hty (hF.own _ _ _ _ hf0 hc (by rw [ho0, ha]))
            rw [if_neg (by simp [hne]), if_neg (by simp [hty])]
            exact hi.heap ty c a k hc ha
        · intro b hb o ho k v
          rw [ht] at hb
          rcases List.mem_append.1 ho with ho | ho
          · exact hi.late b hb o ho k v
          · rw [List.mem_singleton] at ho; rw [ho]
            intro he
            cases he
            rw [List.getElem?_eq_none_iff] at hb
            omega

theorem inv_run (hF : Factory F) {l : List Op} {s : State} (hr : run F ⟨h0, []⟩ l = some s) : Inv F h0 l s :=
  run_induct (P := Inv F h0) ⟨rfl, by simp, by simp, fun _ _ _ _ _ _ => rfl, by simp⟩
    (fun _ _ _ _ _ hi hs => inv_step hF hi hs) _ l s rfl hr

/-- What the code does: the options of a builder are those of all builders made for its type. -/
theorem C60_shared (hF : Factory F) {l : List Op} {s : State} (hr : run F ⟨h0, []⟩ l = some s) {b : Nat} {ty : String}
    (hb : (types (known F) l)[b]? = some ty) (k : String) :
    getOpt s b k = sharedOpt (fun b' => (types (known F) l)[b']? == some ty) k (initial F h0 ty k) l := by
  have hi := inv_run hF hr
  have hlen : s.builders.length = (types (known F) l).length := by
    have := congrArg List.length hi.opts; simpa using this
  have hlt := (List.getElem?_eq_some_iff.1 hb).1
  obtain ⟨c, hc⟩ : ∃ c, s.builders[b]? = some c := ⟨_, List.getElem?_eq_getElem (by omega)⟩
  obtain ⟨ty', c0, h1, h2, -⟩ := hi.ids b c hc
  rw [hb] at h1
  cases h1
  have ho : c.options = c0.options := by
    have h1 := congrArg (fun l => l[b]?) hi.opts
    simpa only [List.getElem?_map, hc, hb, Option.map_some, h2, Option.bind_some, Option.some.injEq] using h1
  cases hco : c0.options with
  | none => exact absurd hco (hF.map _ _ h2)
  | some a =>
    unfold getOpt initial
    simp only [hc, ho, h2, hco]
    exact hi.heap ty c0 a k h2 hco

/-- C60, the part that holds: a builder has the options that were set on it, and the initial ones, as long as no other
builder of its type is given that option. Full claim: the same without this condition; refuted below. -/
theorem C60_private_partial (hF : Factory F) {l : List Op} {s : State} (hr : run F ⟨h0, []⟩ l = some s) {b : Nat}
    {ty : String} (hb : (types (known F) l)[b]? = some ty) (k : String)
    (hn : ∀ b' v, .withOpt b' k v ∈ l → (types (known F) l)[b']? = some ty → b' = b) :
    getOpt s b k = ownOpt b k (initial F h0 ty k) l := by
  rw [C60_shared hF hr hb k]
  unfold ownOpt
  apply sharedOpt_congr
  intro o ho b' v hov
  subst hov
  by_cases hb' : (types (known F) l)[b']? = some ty
  · simp [hb, hn b' v ho hb']
  · have : b' ≠ b := by rintro rfl; exact hb' hb
    simp [hb', this]

/-- C60: setting an option on a builder is not visible through builders of other types. -/
theorem C60_other_type (hF : Factory F) {l : List Op} {s : State} (hr : run F ⟨h0, []⟩ l = some s) {b : Nat}
    {ty : String} (hb : (types (known F) l)[b]? = some ty) {k : String}
    (hn : ∀ b' v, .withOpt b' k v ∈ l → (types (known F) l)[b']? ≠ some ty) : getOpt s b k = initial F h0 ty k := by
  rw [C60_shared hF hr hb k, sharedOpt_congr (bs' := fun _ => false)]
  · generalize initial F h0 ty k = d
    clear hr hn hb
    unfold sharedOpt
    induction l generalizing d with
    | nil => rfl
    | cons o l ih =>
      rw [List.foldl_cons]
      have e : optStep (fun _ => false) k d o = d := by cases o <;> simp [optStep]
      rw [e]
      exact ih d
  · intro o ho b' v hov
    subst hov
    simp [hn b' v ho]

/-- C60 is violated, for every type, key and value: what is set on one builder is seen through another builder of
the type, whether that was made before or after. -/
theorem C60_shared_refuted (hF : Factory F) {ty : String} {c : Ctor} (hc : F ty = some c) (k v : String) :
    ∃ s, run F ⟨h0, []⟩ [.make ty, .make ty, .withOpt 0 k v, .make ty] = some s ∧
      getOpt s 1 k = v ∧ getOpt s 2 k = v := by
  cases ho : c.options with
  | none => exact absurd ho (hF.map _ _ hc)
  | some a =>
    refine ⟨⟨write h0 a k v, [c, c, c]⟩, ?_, ?_, ?_⟩
    · simp [run, step, hc, ho]
    · simp [getOpt, ho, write]
    · simp [getOpt, ho, write]

/-- C60, ids: the id of a builder is the one last set on it, or that of the constructor. -/
theorem C60_id_private (hF : Factory F) {l : List Op} {s : State} (hr : run F ⟨h0, []⟩ l = some s) {b : Nat}
    {ty : String} {c : Ctor} (hb : (types (known F) l)[b]? = some ty) (hc : F ty = some c) :
    getID s b = ownID b c.id l := by
  have hi := inv_run hF hr
  have hlen : s.builders.length = (types (known F) l).length := by
    have := congrArg List.length hi.opts; simpa using this
  have hlt := (List.getElem?_eq_some_iff.1 hb).1
  obtain ⟨c', hc'⟩ : ∃ c, s.builders[b]? = some c := ⟨_, List.getElem?_eq_getElem (by omega)⟩
  obtain ⟨ty', c0, h1, h2, h3⟩ := hi.ids b c' hc'
  rw [hb] at h1
  cases h1
  rw [hc] at h2
  cases h2
  unfold getID
  rw [hc']
  exact h3

/-- The example: a factory with two types, three builders and their options. -/
def exF : String → Option Ctor := fun ty =>
  if ty = "a" then some ⟨"a", "a", some 0⟩ else if ty = "b" then some ⟨"b", "b", some 1⟩ else none

theorem exF_ok : Factory exF := by
  constructor
  · intro ty c h
    unfold exF at h
    split at h
    · cases h; simp
    · split at h <;> cases h; simp
  · intro ty ty' c c' h h' e
    unfold exF at h h'
    split at h
    · split at h'
      · rename_i h1 h2; rw [h1, h2]
      · split at h' <;> cases h' <;> cases h; simp at e
    · split at h <;> cases h
      split at h'
      · cases h'; simp at e
      · split at h' <;> cases h'
        rename_i h1 _ h2; rw [h1, h2]

example : ∃ s, run exF ⟨fun _ _ => none, []⟩ [.make "a", .make "b", .withOpt 0 "k" "1", .withOpt 1 "k" "2", .withID 0 "x",
    .make "a", .make "c"] = some s ∧ getOpt s 0 "k" = "1" ∧ getOpt s 1 "k" = "2" ∧ getID s 0 = "x" ∧ getID s 2 = "a" :=
  ⟨_, rfl, by decide, by decide, by decide, by decide⟩

/-- C60, `WithType`: the type of that builder is the one given, and neither its id, its options nor another builder
changes. -/
theorem C60_type {s s' : State} {b : Nat} {ty : String} (hs : step F s (.withType b ty) = some s') :
    (∃ c, s'.builders[b]? = some c ∧ c.name = ty) ∧ (∀ b', getID s' b' = getID s b') ∧
    (∀ b' k, getOpt s' b' k = getOpt s b' k) ∧ ∀ b', b' ≠ b → s'.builders[b']? = s.builders[b']? := by
  simp only [step] at hs
  split at hs
  · cases hs
  · rename_i c hc
    cases hs
    have hlt : b < s.builders.length := by
      rcases Nat.lt_or_ge b s.builders.length with h | h
      · exact h
      · rw [List.getElem?_eq_none h] at hc; cases hc
    have hx : ∀ b', (s.builders.set b { c with name := ty })[b']? =
        if b' = b then some { c with name := ty } else s.builders[b']? := by
      intro b'
      rw [List.getElem?_set]
      by_cases hb : b = b'
      · subst hb; simp [hlt]
      · simp [hb, Ne.symm hb]
    refine ⟨⟨_, by rw [hx, if_pos rfl], rfl⟩, fun b' => ?_, fun b' k => ?_, fun b' hb => by rw [hx, if_neg hb]⟩
    · simp only [getID, hx]
      split <;> rename_i h1 <;> split at h1 <;> simp_all
      all_goals (subst_vars; simp_all)
    · simp only [getOpt, hx]
      split <;> rename_i h1 <;> split at h1 <;> simp_all
      all_goals (subst_vars; simp_all)

example : ∃ s', step (fun _ => none) ⟨fun _ _ => none, [⟨"i", "t", none⟩, ⟨"j", "u", some 0⟩]⟩ (.withType 1 "v") = some s' :=
  ⟨_, rfl⟩

end Braid.Builder
