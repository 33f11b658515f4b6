import Verif.Book.Look

/-
What the calls that write return.
-/
namespace Braid.Book
open AddressBook Book.Spec
open AddressBook.Spec (Reg weightOf)

variable {cfg : Nat → NodeCfg} {own : String → Nat}

/-- The goroutine that makes a step. -/
def Act.who : Act → Nat
  | .start g _ => g
  | .go g => g
  | .range g _ => g
  | .fail g => g

theorem run_ids {r : Redis} {c : Cmd} {id : String} (h1 : ∀ a, c ≠ .hsetId id a) (h2 : c ≠ .hdelId id) :
    (r.run c).ids id = r.ids id := by
  cases c <;> simp only [Redis.run, AddressBook.set] <;> rw [if_neg]
  · rintro rfl; exact h1 _ rfl
  · rintro rfl; exact h2 rfl

/-- A step of one goroutine leaves the others alone, and records that no call in progress of it concerns. -/
theorem step_frame {F : String → Foot} {h : List Ev} {s s' : State} {a : Act} {evs : List Ev} (hi : Inv cfg own F h s)
    (hs : step cfg s a = some (s', evs)) :
    (∀ x, x ≠ a.who → s'.pc x = s.pc x) ∧ (∀ e ∈ evs, who e = a.who) ∧
    ∀ id, s'.W.redis.ids id = s.W.redis.ids id ∨ ∃ o, (s.pc a.who).op = some o ∧ Concerns own o id := by
  cases a with
  | start g o =>
    simp only [step] at hs
    split at hs
    · simp only [Option.some.injEq, Prod.mk.injEq] at hs
      obtain ⟨rfl, rfl⟩ := hs
      exact ⟨fun x hx => upd_of_ne _ _ hx, by simp [who, Act.who], fun _ => .inl rfl⟩
    · cases hs
  | range g tys =>
    simp only [step, stepRange, at_] at hs
    split at hs
    · split at hs
      · simp only [Option.some.injEq, Prod.mk.injEq] at hs
        obtain ⟨rfl, rfl⟩ := hs
        exact ⟨fun x hx => upd_of_ne _ _ hx, by simp, fun _ => .inl rfl⟩
      · cases hs
    · cases hs
  | fail g =>
    simp only [step, stepFail, ret] at hs
    split at hs
    all_goals first
      | (cases hs; done)
      | skip
    all_goals
      simp only [Option.some.injEq, Prod.mk.injEq] at hs
      obtain ⟨rfl, rfl⟩ := hs
      exact ⟨fun x hx => upd_of_ne _ _ hx, by simp [who, Act.who], fun _ => .inl rfl⟩
  | go g =>
    have hp := hi.pcs g
    simp only [step, stepGo, ret, at_] at hs
    repeat' split at hs
    all_goals first
      | (cases hs; done)
      | skip
    all_goals
      simp only [Option.some.injEq, Prod.mk.injEq] at hs
      obtain ⟨rfl, rfl⟩ := hs
      refine ⟨fun x hx => upd_of_ne _ _ hx, by simp [who, Act.who], ?_⟩
      try exact fun _ => .inl rfl
    · rename_i n ty id w k hpc _ c hc
      intro x
      by_cases hx : x = id
      · subst hx
        exact .inr ⟨_, by rw [show (Act.go g).who = g from rfl, hpc]; rfl, .inl (.inl ⟨_, _, _, rfl⟩)⟩
      · left
        have := List.mem_of_getElem? hc
        simp only [registerCmds, List.mem_cons, List.not_mem_nil, or_false] at this
        refine run_ids ?_ ?_ <;> rcases this with rfl | rfl | rfl | rfl | rfl <;> simp
        exact fun h => absurd h.symm hx
    · rename_i n a id w k hpc _ c hc
      intro x
      by_cases hx : x = id
      · subst hx
        exact .inr ⟨_, by rw [show (Act.go g).who = g from rfl, hpc]; rfl, .inl (.inr ⟨_, _, rfl⟩)⟩
      · left
        have := List.mem_of_getElem? hc
        simp only [unregisterCmds, List.mem_cons, List.not_mem_nil, or_false] at this
        refine run_ids ?_ ?_ <;> rcases this with rfl | rfl | rfl | rfl <;> simp
        exact fun h => absurd h.symm hx
    · rename_i n c cmds hpc
      intro x
      by_cases hx : c = .hdelId x
      · rw [hpc] at hp
        have := hp.2.2.2.2 c (by simp)
        subst hx
        rcases this with ⟨id, hid, h | h⟩ | h | h
        · cases h
          exact .inr ⟨_, by rw [show (Act.go g).who = g from rfl, hpc]; rfl, .inr (by rw [hid])⟩
        all_goals cases h
      · left
        refine run_ids ?_ hx
        rw [hpc] at hp
        have := hp.2.2.2.2 c (by simp)
        rcases this with ⟨id, -, rfl | rfl⟩ | rfl | rfl <;> simp

/-- What is known about an `Unregister` in progress: whether the id was in the directory when it was called. -/
def Asked (s : State) (d : List Reg) (id : String) : Pc → Prop
  | .uGet _ _ _ => s.W.redis.ids id ≠ none ↔ ∃ x ∈ d, x.id = id
  | _ => ∃ x ∈ d, x.id = id

def UInv (h : List Ev) (s : State) : Prop :=
  ∀ g n id w, (s.pc g).op = some (.unreg n id w) → ∃ h1 h2, h = h1 ++ .begin g (.unreg n id w) :: h2 ∧
    (∀ e ∈ h2, who e ≠ g) ∧ Asked s (dir h1) id (s.pc g)

theorem uinv_step {h : List Ev} {s s' : State} {a : Act} {evs : List Ev} {F : String → Foot}
    (hi : Inv cfg own F h s) (hu : UInv h s) (hs : step cfg s a = some (s', evs)) (hl : LegalHist own (h ++ evs)) :
    UInv (h ++ evs) s' := by
  obtain ⟨f1, f2, f3⟩ := step_frame hi hs
  intro g n id w ho
  by_cases hg : g = a.who
  · subst hg
    cases a with
    | start g o =>
      simp only [Act.who] at ho ⊢
      simp only [step] at hs
      split at hs
      · rename_i hpc
        simp only [Option.some.injEq, Prod.mk.injEq] at hs
        obtain ⟨rfl, rfl⟩ := hs
        simp only [upd_same] at ho
        have hop : o = .unreg n id w := by
          cases o <;> simp [entry, Pc.op] at ho ⊢
          exact ho
        subst hop
        refine ⟨h, [], rfl, by simp, ?_⟩
        simp only [upd_same, entry, Asked]
        obtain ⟨k1, k2, k3, k4⟩ := hl h g _ [] rfl
        rw [hi.impl.ids]
        constructor
        · intro hne
          apply Classical.byContradiction
          intro hno
          have := hi.off id (fun x hx he => hno ⟨x, hx, he⟩) (fun g' hb => ?_) (k1 ▸ k2)
          · rw [this.1] at hne
            exact hne rfl
          · obtain ⟨o, h1, h2⟩ := busy_op hb
            exact k3 (g', o) ((hi.act g' o).2 h1) h2
        · rintro ⟨x, hx, rfl⟩
          rw [(hi.dirOn x hx).1]
          simp [Foot.full]
      · cases hs
    | range g tys =>
      simp only [Act.who] at ho ⊢
      simp only [step, stepRange, at_] at hs
      split at hs
      · split at hs
        · simp only [Option.some.injEq, Prod.mk.injEq] at hs
          obtain ⟨rfl, rfl⟩ := hs
          simp [Pc.op] at ho
        · cases hs
      · cases hs
    | fail g =>
      simp only [Act.who] at ho ⊢
      simp only [step, stepFail, ret] at hs
      split at hs
      all_goals first
        | (cases hs; done)
        | skip
      all_goals
        simp only [Option.some.injEq, Prod.mk.injEq] at hs
        obtain ⟨rfl, rfl⟩ := hs
        simp [Pc.op] at ho
    | go g =>
      simp only [Act.who] at ho ⊢
      have hug := hu g n id w
      simp only [step, stepGo, ret, at_] at hs
      repeat' split at hs
      all_goals first
        | (cases hs; done)
        | skip
      all_goals
        simp only [Option.some.injEq, Prod.mk.injEq] at hs
        obtain ⟨rfl, rfl⟩ := hs
        simp only [upd_same, Pc.op, reduceCtorEq, Option.some.injEq, Op.unreg.injEq] at ho
      · rename_i hpc _ _ _ hids
        obtain ⟨rfl, rfl, rfl⟩ := ho
        obtain ⟨h1, h2, e1, e2, e3⟩ := hug (by rw [hpc]; rfl)
        rw [hpc] at e3
        refine ⟨h1, h2, by simpa using e1, e2, ?_⟩
        simp only [upd_same, Asked]
        exact e3.1 (by rw [hids]; simp)
      · rename_i hpc _ _ _
        obtain ⟨rfl, rfl, rfl⟩ := ho
        obtain ⟨h1, h2, e1, e2, e3⟩ := hug (by rw [hpc]; rfl)
        rw [hpc] at e3
        refine ⟨h1, h2, by simpa using e1, e2, ?_⟩
        simp only [upd_same, Asked]
        exact e3
      · rename_i hpc _ _
        obtain ⟨rfl, rfl, rfl⟩ := ho
        obtain ⟨h1, h2, e1, e2, e3⟩ := hug (by rw [hpc]; rfl)
        rw [hpc] at e3
        refine ⟨h1, h2, by simpa using e1, e2, ?_⟩
        simp only [upd_same, Asked]
        exact e3
  · rw [f1 g hg] at ho ⊢
    obtain ⟨h1, h2, e1, e2, e3⟩ := hu g n id w ho
    refine ⟨h1, h2 ++ evs, by rw [e1]; simp, ?_, ?_⟩
    · intro e he
      rcases List.mem_append.1 he with he | he
      · exact e2 e he
      · rw [f2 e he]; exact fun h => hg h.symm
    · have : s'.W.redis.ids id = s.W.redis.ids id := by
        rcases f3 id with h | ⟨o, h1, h2⟩
        · exact h
        · exact absurd (hi.excl _ _ _ _ id ho h1 (.inl (.inr ⟨_, _, rfl⟩)) h2) hg
      unfold Asked at e3 ⊢
      rw [this]
      exact e3

theorem uinv_run (hd : DistinctNodes cfg) {h : List Ev} {s : State} (hr : (sys cfg).Run h s) (hl : LegalHist own h)
    (hu : Unbroken h) : UInv h s := by
  induction hr with
  | init => intro g n id w ho; simp [sys, init, Pc.op] at ho
  | step hr hs ih =>
    obtain ⟨F, hi⟩ := inv_run hd hr (legal_prefix hl) (unbroken_prefix hu)
    exact uinv_step hi (ih (legal_prefix hl) (unbroken_prefix hu)) hs hl

/-- The last event of a goroutine is at one place only. -/
theorem last_unique {g : Nat} {e e' : Ev} {h1 h1' h2 h2' : List Ev} (he : h1 ++ e :: h2 = h1' ++ e' :: h2')
    (h : who e = g) (h' : who e' = g) (hn : ∀ x ∈ h2, who x ≠ g) (hn' : ∀ x ∈ h2', who x ≠ g) :
    h1 = h1' ∧ e = e' := by
  rcases List.append_eq_append_iff.1 he with ⟨a, rfl, h3⟩ | ⟨a, rfl, h3⟩
  · cases a with
    | nil => simp at h3; exact ⟨by simp, h3.1⟩
    | cons x a =>
      simp only [List.cons_append, List.cons.injEq] at h3
      exact absurd h' (hn e' (by rw [h3.2]; simp))
  · cases a with
    | nil => simp at h3; exact ⟨by simp, h3.1.symm⟩
    | cons x a =>
      simp only [List.cons_append, List.cons.injEq] at h3
      exact absurd h (hn' e (by rw [h3.2]; simp))

/-- The step at which `Unregister` returns. -/
theorem finish_unreg {s s' : State} {a : Act} {pre post : List Ev} {g n : Nat} {id : String} {w : Int} {r : Res}
    (hs : step cfg s a = some (s', pre ++ .finish g (.unreg n id w) r :: post)) :
    pre = [] ∧ (r = .broken ∨ s.pc g = .uGet n id w ∧ id = "" ∧ r = .refused ∨
      s.pc g = .uGet n id w ∧ s.W.redis.ids id = none ∧ r = .unknown ∨ s.pc g = .uIdmap n id w ∧ r = .ok) := by
  cases a with
  | start g' o =>
    simp only [step] at hs
    split at hs
    · simp only [Option.some.injEq, Prod.mk.injEq] at hs
      obtain ⟨-, he⟩ := hs
      cases pre <;> simp at he
    · cases hs
  | range g' tys =>
    simp only [step, stepRange, at_] at hs
    split at hs
    · split at hs
      · simp only [Option.some.injEq, Prod.mk.injEq] at hs
        obtain ⟨-, he⟩ := hs
        cases pre <;> simp at he
      · cases hs
    · cases hs
  | fail g' =>
    simp only [step, stepFail, ret] at hs
    split at hs
    all_goals first
      | (cases hs; done)
      | skip
    all_goals
      simp only [Option.some.injEq, Prod.mk.injEq] at hs
      obtain ⟨-, he⟩ := hs
      cases pre with
      | nil =>
        simp only [List.nil_append, List.cons.injEq, Ev.finish.injEq] at he
        exact ⟨rfl, .inl he.1.2.2.symm⟩
      | cons x l => simp at he
  | go g' =>
    simp only [step, stepGo, ret, at_] at hs
    repeat' split at hs
    all_goals first
      | (cases hs; done)
      | skip
    all_goals
      simp only [Option.some.injEq, Prod.mk.injEq] at hs
      obtain ⟨-, he⟩ := hs
      cases pre with
      | cons x l => simp at he
      | nil =>
        simp only [List.nil_append, List.cons.injEq, Ev.finish.injEq, Op.unreg.injEq, reduceCtorEq, false_and, and_false] at he
        try
          obtain ⟨⟨rfl, ⟨rfl, rfl, rfl⟩, rfl⟩, -⟩ := he
          refine ⟨rfl, ?_⟩
          simp_all

/-- The step at which `Register` returns. -/
theorem finish_reg {s s' : State} {a : Act} {pre post : List Ev} {g n : Nat} {ty id : String} {w : Int} {r : Res}
    (hs : step cfg s a = some (s', pre ++ .finish g (.reg n ty id w) r :: post)) :
    pre = [] ∧ (r = .broken ∨ s.pc g = .rBook n ty id w ∧ (id = "" ∨ ty = "" ∨ s.W.idmap n id = true) ∧ r = .refused ∨
      s.pc g = .rIdmap n ty id w ∧ r = .ok) := by
  cases a with
  | start g' o =>
    simp only [step] at hs
    split at hs
    · simp only [Option.some.injEq, Prod.mk.injEq] at hs
      obtain ⟨-, he⟩ := hs
      cases pre <;> simp at he
    · cases hs
  | range g' tys =>
    simp only [step, stepRange, at_] at hs
    split at hs
    · split at hs
      · simp only [Option.some.injEq, Prod.mk.injEq] at hs
        obtain ⟨-, he⟩ := hs
        cases pre <;> simp at he
      · cases hs
    · cases hs
  | fail g' =>
    simp only [step, stepFail, ret] at hs
    split at hs
    all_goals first
      | (cases hs; done)
      | skip
    all_goals
      simp only [Option.some.injEq, Prod.mk.injEq] at hs
      obtain ⟨-, he⟩ := hs
      cases pre with
      | nil =>
        simp only [List.nil_append, List.cons.injEq, Ev.finish.injEq] at he
        exact ⟨rfl, .inl he.1.2.2.symm⟩
      | cons x l => simp at he
  | go g' =>
    simp only [step, stepGo, ret, at_] at hs
    repeat' split at hs
    all_goals first
      | (cases hs; done)
      | skip
    all_goals
      simp only [Option.some.injEq, Prod.mk.injEq] at hs
      obtain ⟨-, he⟩ := hs
      cases pre with
      | cons x l => simp at he
      | nil =>
        simp only [List.nil_append, List.cons.injEq, Ev.finish.injEq, Op.reg.injEq, reduceCtorEq, false_and, and_false] at he
        try
          obtain ⟨⟨rfl, ⟨rfl, rfl, rfl, rfl⟩, rfl⟩, -⟩ := he
          refine ⟨rfl, ?_⟩
          simp_all
          try (rename_i h; rcases h with h | h <;> simp [h]; done)

end Braid.Book
