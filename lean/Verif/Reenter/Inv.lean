import Verif.Reenter.Spec

/-
Invariants of the model of reentrant calls.
-/
namespace Braid.Reenter
open Spec

/-- Takes a step apart. -/
macro "re_cases " h:ident : tactic => `(tactic| (
  simp only [step, complete, setCall] at $h:ident
  repeat' split at $h:ident
  all_goals (try cases $h:ident)))

/-- What the two goroutines and the inner future of a call know. -/
structure InvA (h : List Ev) (s : State) : Prop where
  ctx : ∀ c e, (s.call c).ctx = some e → .ctxEnd c e ∈ h
  g1c : ∀ c e, (s.call c).g1 = .complete e → .ctxEnd c e ∈ h
  g2c : ∀ c o, (s.call c).g2 = .complete o → .callRet c o ∈ h
  inner : ∀ c o, (s.call c).inner = some o → .callRet c o ∈ h
  unused : ∀ c, s.n ≤ c → (s.call c).cb1 = .off ∧ (s.call c).inner = none ∧ (s.call c).g1 = .ended ∧
    (s.call c).g2 = .ended ∧ (s.call c).fut = none
  innerNone : ∀ c, c < s.n → ((s.call c).inner = none ↔ (s.call c).g2 ≠ .ended)
  stored : ∀ c, (s.call c).cb1 = .stored → (s.call c).inner = none
  ready : ∀ c, (s.call c).cb1 = .ready → (s.call c).inner ≠ none
  endedI : ∀ c, (s.call c).cb1 = .ended → (s.call c).inner ≠ none
  queue : ∀ c o, (c, o) ∈ s.queue → (s.call c).inner = some o ∧ (s.call c).cb1 = .ended
  action : ∀ c o, s.loop = .action c o → (s.call c).inner = some o ∧ (s.call c).cb1 = .ended
  complete : ∀ c, s.loop = .complete c → (s.call c).cb1 = .ended
  evs : ∀ c, s.n ≤ c → (∀ o, .callRet c o ∉ h) ∧ (∀ e, .ctxEnd c e ∉ h) ∧ (∀ e0, .begin c e0 ∉ h) ∧
    (∀ w b, .completed c w b ∉ h)
  ctxRet : ∀ c e, .ctxEnd c e ∈ h → (s.call c).ctx ≠ none
  callRet : ∀ c o, .callRet c o ∈ h → (s.call c).g2 ≠ .calling

set_option maxHeartbeats 4000000 in
theorem invA_step {h : List Ev} {s s' : State} {a : Act} {evs : List Ev} (hi : InvA h s)
    (hs : step s a = some (s', evs)) : InvA (h ++ evs) s' := by
  obtain ⟨i1, i2, i3, i4, i5, i6, i7, i8, i9, i10, i11, i12, i13, i14, i15⟩ := hi
  cases a <;> re_cases hs <;> constructor <;> grind [upd_apply]

theorem invA_run {h : List Ev} {s : State} (hr : sys.Run h s) : InvA h s :=
  hr.invariant (P := InvA) (by constructor <;> simp [sys, init]) fun _ _ _ _ _ _ hi hs =>
    invA_step hi hs

/-- Where the result of a call is on its way to the future, and the content of the caller's wrapper. -/
structure InvB (h : List Ev) (s : State) : Prop where
  nodup : (s.queue.map Prod.fst).Nodup
  action : ∀ c o, s.loop = .action c o → ∀ o', (c, o') ∉ s.queue
  complete : ∀ c, s.loop = .complete c → (∀ o, (c, o) ∉ s.queue) ∧ Justified c (s.call c).rmw h
  fresh : ∀ c, c < s.n → (s.call c).cb1 ≠ .ended ∨ (∃ o, (c, o) ∈ s.queue) ∨ (∃ o, s.loop = .action c o) →
    .begin c (s.call c).rmw.err ∈ h
  track : ∀ c, (s.call c).cb1 = .ended → (∃ o, (c, o) ∈ s.queue) ∨ (∃ o, s.loop = .action c o) ∨
    s.loop = .complete c ∨ (s.call c).fut ≠ none
  g1 : ∀ c, c < s.n → (s.call c).g1 = .ended → (s.call c).fut ≠ none ∨ (s.call c).inner ≠ none
  value : ∀ c w, (s.call c).fut = some w → Justified c w h
  ended : ∀ c w, (s.call c).fut = some w → ∃ b, .completed c w b ∈ h
  events : ∀ c w b, .completed c w b ∈ h → (s.call c).fut = some w ∧
    (b = false → ∃ e, w = ⟨some e, none⟩ ∧ .ctxEnd c e ∈ h)

theorem Justified.mono {c : Nat} {w : Wrap} {h : List Ev} (evs : List Ev) (hj : Justified c w h) :
    Justified c w (h ++ evs) := by
  rcases hj with ⟨e, h1, h2⟩ | ⟨e, h1, h2⟩ | ⟨e, r, h1, h2, h3⟩
  · exact .inl ⟨e, h1, List.mem_append_left _ h2⟩
  · exact .inr (.inl ⟨e, h1, List.mem_append_left _ h2⟩)
  · exact .inr (.inr ⟨e, r, h1, List.mem_append_left _ h2, List.mem_append_left _ h3⟩)

theorem justified_ctx {c : Nat} {e : String} {h : List Ev} (hm : .ctxEnd c e ∈ h) :
    Justified c ⟨some e, none⟩ h := .inl ⟨e, rfl, hm⟩

theorem justified_err {c : Nat} {e : String} {w : Wrap} {h : List Ev} (hm : .callRet c (.err e) ∈ h) :
    Justified c { w with err := some e } h := .inr (.inl ⟨e, rfl, hm⟩)

theorem justified_ok {c : Nat} {r : Option Nat} {w : Wrap} {h : List Ev}
    (hm : .callRet c (.ok r) ∈ h) (hb : .begin c w.err ∈ h) : Justified c { w with res := r } h :=
  .inr (.inr ⟨w.err, r, rfl, hm, hb⟩)

set_option maxHeartbeats 8000000 in
theorem invB_step {h : List Ev} {s s' : State} {a : Act} {evs : List Ev} (ha : InvA h s) (hi : InvB h s)
    (hs : step s a = some (s', evs)) : InvB (h ++ evs) s' := by
  obtain ⟨i1, i2, i3, i4, i5, i6, i7, i8, i9, i10, i11, i12, i13, -, -⟩ := ha
  obtain ⟨j1, j2, j3, j4, j5, j6, j7, j8, j9⟩ := hi
  cases a <;> re_cases hs <;> constructor <;>
    grind [upd_apply, Justified.mono, justified_ctx, justified_err, justified_ok]

theorem invB_run {h : List Ev} {s : State} (hr : sys.Run h s) : InvB h s :=
  hr.invariant (P := InvB) (by constructor <;> simp [sys, init]) fun _ _ _ _ _ hr hi hs =>
    invB_step (invA_run hr) hi hs

end Braid.Reenter
