import Verif.Server.Spec

/-
Helper lemmas about the server.
-/
namespace Braid.Server
open Spec

theorem take_succ_foldr (is : List Icpt) (n : Nat) (t : Trace) :
    chainLoop is n t = (is.take n).foldr call t := by
  induction n generalizing t with
  | zero => rfl
  | succ n ih =>
    rw [chainLoop, ih, List.take_add_one, List.foldr_append]
    cases is[n]? <;> rfl

theorem chain_eq (is : List Icpt) (t : Trace) : chainLoop is is.length t = is.foldr call t := by
  rw [take_succ_foldr, List.take_length]

theorem foldl_opts (opts : List Opt) (p : Parm) : opts.foldl applyOpt p =
    { listen := lastOf selListen p.listen opts
      unary := p.unary ++ unaryOf opts
      stream := p.stream ++ streamOf opts
      handler := lastOf selHandler p.handler opts
      graceful := p.graceful || opts.contains .graceful } := by
  induction opts generalizing p with
  | nil => simp [lastOf, unaryOf, streamOf]
  | cons o os ih =>
    rw [List.foldl_cons, ih]
    cases o <;> simp [applyOpt, lastOf, selListen, selHandler, unaryOf, streamOf, List.getLast?_cons, List.append_assoc]

theorem build_eq (opts : List Opt) : build opts =
    if lastOf selHandler none opts = none then none
    else some ⟨⟨lastOf selListen ":14222" opts, unaryOf opts, streamOf opts,
      lastOf selHandler none opts, opts.contains .graceful⟩,
      if unaryOf opts = [] then none else some (unaryOf opts), none⟩ := by
  simp only [build, foldl_opts, List.nil_append, Bool.false_or]
  split
  · rfl
  · cases hu : unaryOf opts <;> simp

theorem unaryCall_eq {opts : List Opt} {s : Server} (hs : build opts = some s) (r : Res) :
    unaryCall s r = (unaryOf opts).foldr call ([.handler], r) := by
  rw [build_eq] at hs
  split at hs
  · cases hs
  · cases hs
    simp only [unaryCall]
    cases hu : unaryOf opts with
    | nil => rfl
    | cons i is => exact chain_eq (i :: is) _

structure Inv (h : List LEv) (s : State) : Prop where
  /-- a listener that is open is the next one to serve, or is with the goroutine, or was not given to `Run` -/
  gs0 : s.gs = 0 → ∀ k, s.g k = .off
  gs1 : s.gs ≤ 1 ∧ ∀ k, k ≠ 0 → s.g k = .off
  served : s.served = true → s.gs = 1
  opened : ∀ l, s.isOpen l = true → .initOk l ∈ h
  ran : ∀ k l, .ran k l ∈ h → k = 0 ∧ s.gs = 1 ∧ (s.g 0 = .start l ∨ (∃ l', l = some l' ∧ s.g 0 = .serving l') ∨
    (s.g 0 = .ended ∧ ∀ l', l = some l' → s.isOpen l' = false))
  cur : ∀ l, s.cur = some l → l < s.n
  gl : ∀ l, s.g 0 = .start (some l) ∨ s.g 0 = .serving l → l < s.n
  ranLt : ∀ k l, .ran k (some l) ∈ h → l < s.n
  stopping : s.stopped = true → ∀ l, s.g 0 = .serving l → s.isOpen l = false
  stopped : (∃ c, .closeCall c ∈ h) → s.stopped = true
  ending : s.g 0 = .ended → s.stopped = true
  active : (s.active : Int) = running h

theorem inv_step {gr : Bool} {h : List LEv} {s s' : State} {a : Act} {evs : List LEv} (hi : Inv h s)
    (hs : step gr s a = some (s', evs)) : Inv (h ++ evs) s' := by
  obtain ⟨i1, i2, i3, i4, i5, i6, i7, i8, i9, i10, i11, i12⟩ := hi
  simp only [step] at hs
  cases a <;> simp only at hs <;> (repeat' split at hs) <;> (try cases hs) <;> constructor <;>
    (try simp only [running, List.count_append] at i12 ⊢) <;> grind [upd_apply]

theorem inv_run {gr : Bool} {h : List LEv} {s : State} (hr : (sys gr).Run h s) : Inv h s :=
  hr.invariant (P := Inv) (by constructor <;> simp [sys, init, running])
    fun _ _ _ _ _ _ hi hs => inv_step hi hs

theorem exec_split {gr : Bool} {s s' : State} {as bs : List Act} {es : List LEv}
    (he : (sys gr).exec s (as ++ bs) = some (s', es)) :
    ∃ s1 e1 e2, (sys gr).exec s as = some (s1, e1) ∧ (sys gr).exec s1 bs = some (s', e2) ∧ es = e1 ++ e2 := by
  induction as generalizing s es with
  | nil => exact ⟨s, [], es, rfl, he, rfl⟩
  | cons a as ih =>
    simp only [List.cons_append, Lts.exec] at he ⊢
    split at he
    · cases he
    · rename_i s1 e1 hs
      split at he
      · cases he
      · rename_i s2 e2 hs2
        cases he
        obtain ⟨s3, e3, e4, h1, h2, rfl⟩ := ih hs2
        exact ⟨s3, e1 ++ e3, e4, by simp [h1], h2, by simp⟩

/-- What holds of every step of an execution whose actions satisfy `A`. -/
theorem exec_ind {gr : Bool} {P : State → Prop} {A : Act → Prop} {Q : LEv → Prop}
    (hstep : ∀ s a s' e, P s → A a → step gr s a = some (s', e) → P s' ∧ ∀ x ∈ e, Q x)
    {s s' : State} {as : List Act} {es : List LEv} (hP : P s) (hA : ∀ a ∈ as, A a)
    (he : (sys gr).exec s as = some (s', es)) : P s' ∧ ∀ x ∈ es, Q x := by
  induction as generalizing s es with
  | nil => simp [Lts.exec] at he; obtain ⟨rfl, rfl⟩ := he; exact ⟨hP, by simp⟩
  | cons a as ih =>
    simp only [Lts.exec] at he
    split at he
    · cases he
    · rename_i s1 e1 hs
      split at he
      · cases he
      · rename_i s2 e2 hs2
        cases he
        have h1 := hstep s a s1 e1 hP (hA a (by simp)) hs
        have h2 := ih h1.1 (fun b hb => hA b (by simp [hb])) hs2
        refine ⟨h2.1, fun x hx => ?_⟩
        rcases List.mem_append.1 hx with hx | hx
        · exact h1.2 x hx
        · exact h2.2 x hx

macro "s_cases " h:ident : tactic => `(tactic| (
  simp only [step] at $h:ident
  repeat' split at $h:ident
  all_goals (try cases $h:ident)))

/-- Before `Run`, nothing crashes; a listener once made stays. -/
theorem pre_run {gr : Bool} {s s' : State} {as : List Act} {es : List LEv}
    (h0 : s.crashed = false ∧ s.gs = 0 ∧ s.served = false ∧ ∀ k, s.g k = .off)
    (hA : ∀ a ∈ as, a ≠ .run) (he : (sys gr).exec s as = some (s', es)) :
    (s'.crashed = false ∧ s'.gs = 0 ∧ s'.served = false ∧ ∀ k, s'.g k = .off) ∧ ∀ x ∈ es, x ≠ .crash := by
  refine exec_ind (P := fun s => s.crashed = false ∧ s.gs = 0 ∧ s.served = false ∧ ∀ k, s.g k = .off) ?_ h0 hA he
  intro s a s' e hP hA hs
  obtain ⟨p1, p2, p3, p4⟩ := hP
  cases a <;> s_cases hs <;> simp_all

theorem cur_exec {gr : Bool} {s s' : State} {as : List Act} {es : List LEv} (hc : s.cur ≠ none)
    (he : (sys gr).exec s as = some (s', es)) : s'.cur ≠ none := by
  refine (exec_ind (P := fun s => s.cur ≠ none) (A := fun _ => True) (Q := fun _ => True) ?_ hc (by simp) he).1
  intro s a s' e hP _ hs
  cases a <;> s_cases hs <;> simp_all

theorem cur_init {gr : Bool} {s s' : State} {as : List Act} {es : List LEv} (hi : .init true ∈ as)
    (he : (sys gr).exec s as = some (s', es)) : s'.cur ≠ none := by
  obtain ⟨l1, l2, rfl⟩ := List.append_of_mem hi
  obtain ⟨s1, e1, e2, -, h2, -⟩ := exec_split he
  simp only [Lts.exec] at h2
  split at h2
  · cases h2
  · rename_i s2 e3 hs
    split at h2
    · cases h2
    · rename_i s3 e4 h3
      cases h2
      refine cur_exec ?_ h3
      simp only [sys] at hs
      s_cases hs <;> simp_all

/-- After `Run` with a listener, nothing crashes. -/
theorem post_run {gr : Bool} {s s' : State} {as : List Act} {es : List LEv}
    (h0 : s.crashed = false ∧ ∀ k, s.g k ≠ .start none)
    (hA : ∀ a ∈ as, a ≠ .run) (he : (sys gr).exec s as = some (s', es)) :
    (s'.crashed = false ∧ ∀ k, s'.g k ≠ .start none) ∧ ∀ x ∈ es, x ≠ .crash := by
  refine exec_ind (P := fun s => s.crashed = false ∧ ∀ k, s.g k ≠ .start none) ?_ h0 hA he
  intro s a s' e hP hA hs
  obtain ⟨p1, p2⟩ := hP
  cases a <;> s_cases hs <;> grind [upd_apply]

/-- A step emits at most one event. -/
theorem one_event {gr : Bool} {s s' : State} {a : Act} {pre post : List LEv} {e : LEv}
    (hs : step gr s a = some (s', pre ++ e :: post)) : pre = [] ∧ post = [] := by
  have : ∀ s' evs, step gr s a = some (s', evs) → evs.length ≤ 1 := by
    intro s' evs h
    cases a <;> s_cases h <;> simp
  have := this _ _ hs
  simp at this
  exact ⟨List.eq_nil_of_length_eq_zero (by omega), List.eq_nil_of_length_eq_zero (by omega)⟩

theorem stopped_exec {gr : Bool} {s s' : State} {as : List Act} {es : List LEv} (h0 : s.stopped = true)
    (he : (sys gr).exec s as = some (s', es)) : s'.stopped = true ∧ ∀ x ∈ es, x ≠ .callStart := by
  refine exec_ind (P := fun s => s.stopped = true) (A := fun _ => True) ?_ h0 (by simp) he
  intro s a s' e hP _ hs
  cases a <;> s_cases hs <;> simp_all

end Braid.Server
