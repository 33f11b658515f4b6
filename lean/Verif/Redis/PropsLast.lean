import Verif.Redis.Props

/-
Property C76: exactly what settings a client has, after any other builds.
-/
namespace Braid.Redis

/-- Specification: what an option does to a setting. A URL gives every setting but the tracer, with 0 for those that it does not
mention; the connect timeout gives the life time of connections; any other option gives what it means. -/
def gives (parse : Parse) (f : Field) : Opt → Option Nat
  | .withAddr u => if f = .tracer then none else some ((means parse (.withAddr u) f).getD 0)
  | .withConnectTimeOut v => if f = .connMaxLifetime then some v else none
  | o => means parse o f

/-- Specification: the value that the last of the options gives, or else `d`. -/
def lastGiven (parse : Parse) (f : Field) (d : Nat) (opts : List Opt) : Nat := ((opts.filterMap (gives parse f)).getLast?).getD d

/-- Specification: an option that does not panic. -/
def Fine (parse : Parse) (o : Opt) : Prop := ∀ u, o = .withAddr u → parse u ≠ none

theorem apply_gives {parse : Parse} {o : Opt} (ho : Fine parse o) (c : Conf) :
    ∃ c', apply parse c o = some c' ∧ ∀ f, c' f = (gives parse f o).getD (c f) := by
  cases o with
  | withAddr u =>
    cases hp : parse u with
    | none => exact absurd hp (ho u rfl)
    | some p =>
      refine ⟨_, by simp only [apply, hp, Option.map_some]; rfl, fun f => ?_⟩
      by_cases hf : f = .tracer
      · subst hf; simp [gives]
      · simp [gives, hf, means, hp]
  | _ => exact ⟨_, rfl, fun f => by cases f <;> rfl⟩

theorem lastGiven_cons (parse : Parse) (f : Field) (d : Nat) (o : Opt) (os : List Opt) :
    lastGiven parse f d (o :: os) = lastGiven parse f ((gives parse f o).getD d) os := by
  unfold lastGiven
  cases hg : gives parse f o with
  | none => simp [hg]
  | some v =>
    simp only [List.filterMap_cons, hg, List.getLast?_cons, Option.getD_some]

theorem applyAll_gives {parse : Parse} (opts : List Opt) (ho : ∀ o ∈ opts, Fine parse o) (c : Conf) :
    (applyAll parse c opts).2 = true ∧ ∀ f, (applyAll parse c opts).1 f = lastGiven parse f (c f) opts := by
  induction opts generalizing c with
  | nil => exact ⟨rfl, fun _ => rfl⟩
  | cons o os ih =>
    obtain ⟨c', h1, h2⟩ := apply_gives (ho o List.mem_cons_self) c
    obtain ⟨h3, h4⟩ := ih (fun o ho' => ho o (List.mem_cons_of_mem _ ho')) c'
    simp only [applyAll, h1]
    exact ⟨h3, fun f => by rw [h4, h2, lastGiven_cons]⟩

theorem lastGiven_append (parse : Parse) (f : Field) (d : Nat) (a b : List Opt) :
    lastGiven parse f d (a ++ b) = lastGiven parse f (lastGiven parse f d a) b := by
  induction a generalizing d with
  | nil => rfl
  | cons o a ih => rw [List.cons_append, lastGiven_cons, ih, lastGiven_cons]

theorem build_gives {parse : Parse} {s : State} {opts : List Opt} (p : Bool) (ho : ∀ o ∈ opts, Fine parse o) (f : Field) :
    (build parse s opts p).1.conf f = lastGiven parse f (s.conf f) opts := by
  obtain ⟨h1, h2⟩ := applyAll_gives opts ho s.conf
  cases p <;> simp [build, h1, h2]

theorem builds_gives {parse : Parse} (bs : List (List Opt × Bool)) (ho : ∀ x ∈ bs, ∀ o ∈ x.1, Fine parse o) (s : State)
    (f : Field) : (builds parse s bs).conf f = lastGiven parse f (s.conf f) (bs.flatMap (·.1)) := by
  induction bs generalizing s with
  | nil => rfl
  | cons x bs ih =>
    obtain ⟨o, p⟩ := x
    simp only [builds, List.flatMap_cons]
    rw [ih (fun x hx => ho x (List.mem_cons_of_mem _ hx)), build_gives p (ho _ List.mem_cons_self), lastGiven_append]

/-- **C76**, exactly: after any builds, whether their clients could connect or not, a build without an option that panics gives a client
iff the server answers; each of its settings is that of the last option, of this build or an earlier one, that gives it, and the
default if there was none. -/
theorem C76_exact {parse : Parse} (bs : List (List Opt × Bool)) (hbs : ∀ x ∈ bs, ∀ o ∈ x.1, Fine parse o) (opts : List Opt)
    (ho : ∀ o ∈ opts, Fine parse o) (p : Bool) :
    ((∃ c, (build parse (builds parse init bs) opts p).2 = some c) ↔ p = true) ∧
    ∀ c, (build parse (builds parse init bs) opts p).2 = some c →
      ∀ f, c f = lastGiven parse f (defaultOf f) (bs.flatMap (·.1) ++ opts) := by
  obtain ⟨h1, h2⟩ := applyAll_gives opts ho (builds parse init bs).conf
  constructor
  · cases p <;> simp [build, h1]
  · intro c hc f
    obtain ⟨-, rfl⟩ := build_some hc
    rw [h2, builds_gives bs hbs, lastGiven_append]
    have : init.conf f = defaultOf f := by cases f <;> rfl
    rw [this]

/-- **C76**, when a build panics: exactly if one of its URLs cannot be read. -/
theorem C76_panic_exact (parse : Parse) (c : Conf) (opts : List Opt) :
    (applyAll parse c opts).2 = false ↔ ∃ u, .withAddr u ∈ opts ∧ parse u = none := by
  constructor
  · intro h
    refine Classical.byContradiction fun hn => ?_
    have := (applyAll_gives opts (parse := parse) (fun o ho u e hu => hn ⟨u, e ▸ ho, hu⟩) c).1
    rw [h] at this; cases this
  · rintro ⟨u, hu, hp⟩
    induction opts generalizing c with
    | nil => cases hu
    | cons o os ih =>
      simp only [applyAll]
      cases ha : apply parse c o with
      | none => rfl
      | some c' =>
        rcases List.mem_cons.1 hu with rfl | hu
        · simp [apply, hp] at ha
        · exact ih c' hu

/-- A pool size given to an earlier client that could not connect is that of the next one; its address is its own. -/
example : ∃ c, (build exParse (builds exParse init [([.withPoolSize 5, .withDomain 3], false)]) [.withDomain 4] true).2 = some c ∧
    c .poolSize = 5 ∧ c .addr = 4 ∧ c .minIdle = 128 := by
  obtain ⟨h1, h2⟩ := C76_exact (parse := exParse) [([.withPoolSize 5, .withDomain 3], false)] (fun _ _ _ _ u _ => by simp [exParse])
    [.withDomain 4] (fun _ _ u _ => by simp [exParse]) true
  obtain ⟨c, hc⟩ := h1.2 rfl
  refine ⟨c, hc, ?_, ?_, ?_⟩ <;> rw [h2 c hc] <;> decide

end Braid.Redis
