import Verif.Mgo.Props

/-
Property C75: exactly which databases can be used, for every list of options and any number of builds.
-/
namespace Braid.Mgo

/-- In the list of connections, `c` is the first with its address. -/
def FirstAt (cs : List ConnInfo) (c : ConnInfo) : Prop := ∃ p q, cs = p ++ c :: q ∧ ∀ d ∈ p, d.addr ≠ c.addr

theorem mem_foldl_applyOpt (opts : List Opt) (acc : List ConnInfo) (c : ConnInfo) :
    c ∈ opts.foldl applyOpt acc ↔
      c ∈ acc ∨ ∃ p q, given opts = p ++ c :: q ∧ (∀ d ∈ acc, d.addr ≠ c.addr) ∧ ∀ d ∈ p, d.addr ≠ c.addr := by
  induction opts generalizing acc with
  | nil => simp [given]
  | cons o opts ih =>
    rw [List.foldl_cons, ih]
    cases o with
    | other => exact Iff.rfl
    | appendConn x =>
      have hg : given (.appendConn x :: opts) = x :: given opts := rfl
      rw [hg]
      have hrep : checkRepeat acc x.addr = true ↔ ∃ d ∈ acc, d.addr = x.addr := by simp [checkRepeat]
      by_cases hx : ∃ d ∈ acc, d.addr = x.addr
      · have : applyOpt acc (.appendConn x) = acc := by simp [applyOpt, hrep.2 hx]
        rw [this]
        constructor
        · rintro (h | ⟨p, q, h1, h2, h3⟩)
          · exact .inl h
          · refine .inr ⟨x :: p, q, by rw [h1]; rfl, h2, fun d hd => ?_⟩
            rcases List.mem_cons.1 hd with rfl | hd
            · obtain ⟨e, he, hee⟩ := hx
              rw [← hee]; exact h2 e he
            · exact h3 d hd
        · rintro (h | ⟨p, q, h1, h2, h3⟩)
          · exact .inl h
          · rcases p with _ | ⟨y, p⟩
            · simp only [List.nil_append, List.cons.injEq] at h1
              obtain ⟨rfl, -⟩ := h1
              obtain ⟨e, he, hee⟩ := hx
              exact absurd hee (h2 e he)
            · simp only [List.cons_append, List.cons.injEq] at h1
              exact .inr ⟨p, q, h1.2, h2, fun d hd => h3 d (List.mem_cons_of_mem _ hd)⟩
      · have hf : checkRepeat acc x.addr = false := by
          cases hc : checkRepeat acc x.addr
          · rfl
          · exact absurd (hrep.1 hc) hx
        have : applyOpt acc (.appendConn x) = acc ++ [x] := by simp [applyOpt, hf]
        rw [this]
        constructor
        · rintro (h | ⟨p, q, h1, h2, h3⟩)
          · rcases List.mem_append.1 h with h | h
            · exact .inl h
            · rw [List.mem_singleton] at h
              subst h
              exact .inr ⟨[], given opts, rfl, fun d hd he => hx ⟨d, hd, he⟩, by simp⟩
          · refine .inr ⟨x :: p, q, by rw [h1]; rfl, fun d hd => h2 d (List.mem_append_left _ hd), fun d hd => ?_⟩
            rcases List.mem_cons.1 hd with rfl | hd
            · exact h2 d (by simp)
            · exact h3 d hd
        · rintro (h | ⟨p, q, h1, h2, h3⟩)
          · exact .inl (List.mem_append_left _ h)
          · rcases p with _ | ⟨y, p⟩
            · simp only [List.nil_append, List.cons.injEq] at h1
              exact .inl (by simp [h1.1])
            · simp only [List.cons_append, List.cons.injEq] at h1
              obtain ⟨rfl, h1⟩ := h1
              refine .inr ⟨p, q, h1, fun d hd => ?_, fun d hd => h3 d (List.mem_cons_of_mem _ hd)⟩
              rcases List.mem_append.1 hd with hd | hd
              · exact h2 d hd
              · rw [List.mem_singleton] at hd
                subst hd; exact h3 d List.mem_cons_self

theorem lastAddr_isSome_iff (cs : List ConnInfo) (n : String) :
    (lastAddr n cs).isSome = true ↔ ∃ c ∈ cs, c.name = n := by
  constructor
  · induction cs with
    | nil => intro h; cases h
    | cons c cs ih =>
      intro h
      simp only [lastAddr] at h
      cases hl : lastAddr n cs with
      | some a =>
        obtain ⟨d, hd, he⟩ := ih (by rw [hl]; rfl)
        exact ⟨d, List.mem_cons_of_mem _ hd, he⟩
      | none =>
        rw [hl] at h
        by_cases hc : c.name = n
        · exact ⟨c, List.mem_cons_self, hc⟩
        · simp [hc] at h
  · rintro ⟨c, hc, rfl⟩
    exact lastAddr_isSome hc

/-- **C75**, exactly: after a first `Build` that returned, and any number of later ones, a database can be used iff the
first `Build` was given it as the first one for some address. -/
theorem C75_exact (opts : List Opt) (ok : Nat → Bool) (s : State) (h : build init opts ok = (s, true))
    (bs : List (List Opt × (Nat → Bool))) (n : String) :
    (collection (builds init ((opts, ok) :: bs)) n).isSome = true ↔ ∃ c, FirstAt (given opts) c ∧ c.name = n := by
  have hb : builds init ((opts, ok) :: bs) = s := by
    have hd : ∀ (bs : List (List Opt × (Nat → Bool))) (s : State), s.done = true → builds s bs = s := by
      intro bs
      induction bs with
      | nil => intro s _; rfl
      | cons b bs ih =>
        intro s h
        have : (build s b.1 b.2).1 = s := by simp [build, h]
        simp only [builds]
        rw [this]; exact ih s h
    have hs : s.done = true := by
      have := congrArg (·.1.done) h
      simpa [build, init] using this.symm
    simp only [builds, h]
    exact hd bs s hs
  rw [hb]
  simp only [build, init, Bool.false_eq_true, if_false, Prod.mk.injEq] at h
  obtain ⟨rfl, h⟩ := h
  simp only [collection, Option.bind_some, connect_ok h, Option.or_none, lastAddr_isSome_iff]
  constructor
  · rintro ⟨c, hc, rfl⟩
    rcases (mem_foldl_applyOpt opts [] c).1 hc with h | ⟨p, q, h1, -, h3⟩
    · cases h
    · exact ⟨c, ⟨p, q, h1, h3⟩, rfl⟩
  · rintro ⟨c, ⟨p, q, h1, h3⟩, rfl⟩
    exact ⟨c, (mem_foldl_applyOpt opts [] c).2 (.inr ⟨p, q, h1, by simp, h3⟩), rfl⟩

/-- Three databases on two servers: the second of the first server is missing. -/
example : ∃ s, build init [.appendConn ⟨"h", "a"⟩, .appendConn ⟨"h", "b"⟩, .appendConn ⟨"g", "c"⟩] (fun _ => true) = (s, true) ∧
    (collection s "a").isSome = true ∧ collection s "b" = none ∧ (collection s "c").isSome = true ∧
    FirstAt (given [.appendConn ⟨"h", "a"⟩, .appendConn ⟨"h", "b"⟩, .appendConn ⟨"g", "c"⟩]) ⟨"g", "c"⟩ :=
  ⟨_, rfl, rfl, rfl, rfl, [⟨"h", "a"⟩, ⟨"h", "b"⟩], [], rfl, by decide⟩

end Braid.Mgo
