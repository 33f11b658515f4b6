import Verif.Mgo.Spec

/-
Property C75: connections to MongoDB, for every list of options, every failure and any number of builds.
-/
namespace Braid.Mgo

theorem connect_ok {ok : Nat → Bool} {m : String → Option String} {i : Nat} {cs : List ConnInfo}
    (h : (connect ok m i cs).2 = true) (n : String) : (connect ok m i cs).1 n = (lastAddr n cs).or (m n) := by
  induction cs generalizing m i with
  | nil => simp [connect, lastAddr]
  | cons c cs ih =>
    simp only [connect] at h ⊢
    split at h
    · rename_i hk
      simp only [hk, if_true, ih h, lastAddr]
      cases lastAddr n cs with
      | some a => rfl
      | none =>
        by_cases hc : c.name = n
        · simp [hc]
        · simp [hc, Ne.symm hc]
    · cases h

theorem connsOf_distinct {opts : List Opt} (h : DistinctAddrs opts) : connsOf opts = given opts := by
  suffices k : ∀ acc : List ConnInfo, ((acc ++ given opts).map (·.addr)).Nodup → opts.foldl applyOpt acc = acc ++ given opts by
    simpa [connsOf] using k [] (by simpa [DistinctAddrs] using h)
  clear h
  induction opts with
  | nil => intro acc _; simp [given]
  | cons o opts ih =>
    intro acc hn
    cases o with
    | other =>
      simpa [given, applyOpt] using ih acc (by simpa [given] using hn)
    | appendConn c =>
      have hg : given (.appendConn c :: opts) = c :: given opts := rfl
      rw [hg] at hn ⊢
      have hc : checkRepeat acc c.addr = false := by
        rw [checkRepeat, List.any_eq_false]
        intro x hx
        simp only [List.map_append, List.map_cons, List.nodup_append] at hn
        simpa using hn.2.2 x.addr (List.mem_map_of_mem hx) c.addr List.mem_cons_self
      rw [List.foldl_cons, applyOpt, hc]
      simpa using ih (acc ++ [c]) (by simpa using hn)

theorem lastAddr_isSome {cs : List ConnInfo} {c : ConnInfo} (h : c ∈ cs) : (lastAddr c.name cs).isSome = true := by
  induction cs with
  | nil => cases h
  | cons d cs ih =>
    simp only [lastAddr]
    rcases List.mem_cons.1 h with rfl | h
    · cases lastAddr c.name cs <;> simp
    · have := ih h
      cases hl : lastAddr c.name cs <;> simp_all

/-- **C75**, the part that holds: after the first `Build`, if it returned and no address was given twice, every
connection can be used, and a name stands for the address last given for it. What is missing: one address for several
names, a `Build` after one that panicked, and a second `Build`. -/
theorem C75_first_partial (opts : List Opt) (ok : Nat → Bool) (s : State) (h : build init opts ok = (s, true))
    (hd : DistinctAddrs opts) : Usable opts s ∧ ∀ n, collection s n = lastAddr n (given opts) := by
  simp only [build, init, Bool.false_eq_true, if_false, Prod.mk.injEq] at h
  obtain ⟨rfl, h⟩ := h
  rw [connsOf_distinct hd] at h ⊢
  have key : ∀ n, collection ⟨true, some (connect ok (fun _ => none) 0 (given opts)).1⟩ n = lastAddr n (given opts) := by
    intro n
    simp [collection, connect_ok h]
  refine ⟨fun c hc => ?_, key⟩
  rw [key]
  refine lastAddr_isSome ?_
  simp only [given, List.mem_filterMap]
  exact ⟨_, hc, rfl⟩

/-- **C75**, later builds: they return nil and change nothing. -/
theorem C75_later_partial (o : List Opt) (k : Nat → Bool) (bs : List (List Opt × (Nat → Bool))) (opts : List Opt)
    (ok : Nat → Bool) : build (builds init ((o, k) :: bs)) opts ok = (builds init ((o, k) :: bs), true) := by
  have hd : ∀ (bs : List (List Opt × (Nat → Bool))) (s : State), s.done = true → (builds s bs).done = true := by
    intro bs
    induction bs with
    | nil => intro s h; exact h
    | cons b bs ih =>
      intro s h
      refine ih _ ?_
      simp [build, h]
  have : (builds init ((o, k) :: bs)).done = true := hd bs _ (by simp [build, init])
  simp [build, this]

/-- **C75** is violated: of two databases on one server only the first can be used. -/
theorem C75_addr_refuted : ∃ opts ok s, build init opts ok = (s, true) ∧ (∀ i, ok i = true) ∧ ¬ Usable opts s := by
  refine ⟨[.appendConn ⟨"h", "a"⟩, .appendConn ⟨"h", "b"⟩], fun _ => true, _, rfl, fun _ => rfl, ?_⟩
  intro h
  have := h ⟨"h", "b"⟩ (by simp)
  revert this
  decide

/-- **C75** is violated: after a first `Build` that panicked the second returns nil, but the connection is missing. -/
theorem C75_panic_refuted : ∃ opts ok ok' s s', build init opts ok = (s, false) ∧ build s opts ok' = (s', true) ∧
    (∀ i, ok' i = true) ∧ DistinctAddrs opts ∧ ¬ Usable opts s' := by
  refine ⟨[.appendConn ⟨"h", "a"⟩], fun _ => false, fun _ => true, _, _, rfl, rfl, fun _ => rfl, by unfold DistinctAddrs; decide, ?_⟩
  intro h
  have := h ⟨"h", "a"⟩ (by simp)
  revert this
  decide

/-- **C75** is violated: a second `Build` for another database is without effect and returns nil. -/
theorem C75_second_refuted : ∃ o ok opts s s', build init o ok = (s, true) ∧ build s opts ok = (s', true) ∧
    (∀ i, ok i = true) ∧ DistinctAddrs opts ∧ ¬ Usable opts s' := by
  refine ⟨[], fun _ => true, [.appendConn ⟨"h", "a"⟩], _, _, rfl, rfl, fun _ => rfl, by unfold DistinctAddrs; decide, ?_⟩
  intro h
  have := h ⟨"h", "a"⟩ (by simp)
  revert this
  decide

/-- Two servers, and another option. -/
example : ∃ s, build init [.appendConn ⟨"h", "a"⟩, .other, .appendConn ⟨"g", "b"⟩] (fun i => decide (i < 2)) = (s, true) ∧
    DistinctAddrs [.appendConn ⟨"h", "a"⟩, .other, .appendConn ⟨"g", "b"⟩] ∧ collection s "b" = some "g" ∧
    collection s "c" = none := ⟨_, rfl, by unfold DistinctAddrs; decide, rfl, rfl⟩

end Braid.Mgo
