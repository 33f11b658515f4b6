import Verif.AddressBook.Refine

/-
Helper lemmas about the selection loops of GetWildcardActor and GetLowWeightNodeForActor, and about
the directory after a list of operations.
-/
namespace Braid.AddressBook
open Spec

/-- The loop keeps the least readable load and an address that has it. -/
theorem wildcardLoop_spec (weight : String → Option Int) (l : List Addr) (lo : Int) (best : Addr) :
    let r := wildcardLoop weight l (lo, best)
    r.1 ≤ lo ∧ (∀ b ∈ l, ∀ w, weight b.node = some w → r.1 ≤ w) ∧
    (r = (lo, best) ∨ (r.1 < lo ∧ r.2 ∈ l ∧ weight r.2.node = some r.1)) := by
  induction l generalizing lo best with
  | nil => simp [wildcardLoop]
  | cons a l ih =>
    simp only [wildcardLoop]
    cases hw : weight a.node with
    | none =>
      obtain ⟨h1, h2, h3⟩ := ih lo best
      refine ⟨h1, ?_, ?_⟩
      · intro b hb w hbw
        rcases List.mem_cons.1 hb with rfl | hb
        · rw [hw] at hbw; cases hbw
        · exact h2 b hb w hbw
      · rcases h3 with h | ⟨h, h', h''⟩
        · exact .inl h
        · exact .inr ⟨h, List.mem_cons_of_mem _ h', h''⟩
    | some w =>
      simp only
      by_cases hlt : w < lo
      · rw [if_pos hlt]
        obtain ⟨h1, h2, h3⟩ := ih w a
        refine ⟨by omega, ?_, ?_⟩
        · intro b hb v hbv
          rcases List.mem_cons.1 hb with rfl | hb
          · rw [hw] at hbv; cases hbv; exact h1
          · exact h2 b hb v hbv
        · right
          rcases h3 with h | ⟨h, h', h''⟩
          · rw [h]; exact ⟨hlt, List.mem_cons_self, hw⟩
          · exact ⟨by omega, List.mem_cons_of_mem _ h', h''⟩
      · rw [if_neg hlt]
        obtain ⟨h1, h2, h3⟩ := ih lo best
        refine ⟨h1, ?_, ?_⟩
        · intro b hb v hbv
          rcases List.mem_cons.1 hb with rfl | hb
          · rw [hw] at hbv; cases hbv; omega
          · exact h2 b hb v hbv
        · rcases h3 with h | ⟨h, h', h''⟩
          · exact .inl h
          · exact .inr ⟨h, List.mem_cons_of_mem _ h', h''⟩

theorem allSome_eq_some {l : List (Option Int)} {ws : List Int} :
    allSome l = some ws ↔ l = ws.map some := by
  induction l generalizing ws with
  | nil => cases ws <;> simp [allSome]
  | cons x l ih =>
    cases x with
    | none => cases ws <;> simp [allSome]
    | some w =>
      simp only [allSome, Option.map_eq_some_iff]
      constructor
      · rintro ⟨vs, hv, rfl⟩; rw [ih.1 hv]; rfl
      · intro h
        cases ws with
        | nil => simp at h
        | cons v ws =>
          simp only [List.map_cons, List.cons.injEq, Option.some.injEq] at h
          exact ⟨ws, ih.2 h.2, by rw [h.1]⟩

/-- Whatever the replies, the loop returns the start value or one of the nodes. -/
theorem lowLoop_mem (l : List (String × Addr)) (ws : List Int) (acc : Int × Addr) :
    lowLoop l ws acc = acc ∨ ∃ k, (k, (lowLoop l ws acc).2) ∈ l := by
  induction l generalizing ws acc with
  | nil => simp [lowLoop]
  | cons e l ih =>
    obtain ⟨k, a⟩ := e
    obtain ⟨lo, best⟩ := acc
    cases ws with
    | nil => simp [lowLoop]
    | cons w ws =>
      simp only [lowLoop]
      by_cases h : w < lo
      · rw [if_pos h]
        rcases ih ws (w, a) with h' | ⟨k', h'⟩
        · right; rw [h']; exact ⟨k, List.mem_cons_self⟩
        · exact .inr ⟨k', List.mem_cons_of_mem _ h'⟩
      · rw [if_neg h]
        rcases ih ws (lo, best) with h' | ⟨k', h'⟩
        · exact .inl h'
        · exact .inr ⟨k', List.mem_cons_of_mem _ h'⟩

/-- With the replies in the same order, the loop finds the least load. -/
theorem lowLoop_spec (weight : String → Option Int) (l : List (String × Addr)) (ws : List Int)
    (hw : l.map (fun e => weight e.1) = ws.map some) (lo : Int) (best : Addr) :
    let r := lowLoop l ws (lo, best)
    r.1 ≤ lo ∧ (∀ e ∈ l, ∀ w, weight e.1 = some w → r.1 ≤ w) ∧
    (r = (lo, best) ∨ ∃ k, (k, r.2) ∈ l ∧ weight k = some r.1) := by
  induction l generalizing ws lo best with
  | nil => simp [lowLoop]
  | cons e l ih =>
    obtain ⟨k, a⟩ := e
    cases ws with
    | nil => simp at hw
    | cons w ws =>
      simp only [List.map_cons, List.cons.injEq] at hw
      simp only [lowLoop]
      by_cases hlt : w < lo
      · rw [if_pos hlt]
        obtain ⟨h1, h2, h3⟩ := ih ws hw.2 w a
        refine ⟨by omega, ?_, ?_⟩
        · intro b hb v hbv
          rcases List.mem_cons.1 hb with rfl | hb
          · rw [hw.1] at hbv; cases hbv; exact h1
          · exact h2 b hb v hbv
        · right
          rcases h3 with h | ⟨k', h, h'⟩
          · rw [h]; exact ⟨k, List.mem_cons_self, hw.1⟩
          · exact ⟨k', List.mem_cons_of_mem _ h, h'⟩
      · rw [if_neg hlt]
        obtain ⟨h1, h2, h3⟩ := ih ws hw.2 lo best
        refine ⟨h1, ?_, ?_⟩
        · intro b hb v hbv
          rcases List.mem_cons.1 hb with rfl | hb
          · rw [hw.1] at hbv; cases hbv; omega
          · exact h2 b hb v hbv
        · rcases h3 with h | ⟨k', h, h'⟩
          · exact .inl h
          · exact .inr ⟨k', List.mem_cons_of_mem _ h, h'⟩

/-! ### The directory after more operations -/

theorem dir_append (a b : List Op) : dir (a ++ b) = b.foldl dirStep (dir a) := by
  simp [dir, List.foldl_append]

/-- A registration stays until it is unregistered or its node is cleared. -/
theorem mem_foldl_dirStep {r : Reg} (post : List Op) (d : List Reg) (hr : r ∈ d)
    (hu : ∀ n w, .unregister n r.id w ∉ post) (hc : .clear r.node ∉ post) :
    r ∈ post.foldl dirStep d := by
  induction post generalizing d with
  | nil => exact hr
  | cons op post ih =>
    rw [List.foldl_cons]
    refine ih _ ?_ (fun n w h => hu n w (List.mem_cons_of_mem _ h))
      (fun h => hc (List.mem_cons_of_mem _ h))
    cases op with
    | register n ty id w =>
      simp only [dirStep]; split
      · exact hr
      · exact List.mem_append_left _ hr
    | unregister n id w =>
      simp only [dirStep, List.mem_filter]
      refine ⟨hr, ?_⟩
      simpa using fun h => hu n w (by rw [h]; exact List.mem_cons_self)
    | clear n =>
      simp only [dirStep, List.mem_filter]
      refine ⟨hr, ?_⟩
      simpa using fun h => hc (by rw [h]; exact List.mem_cons_self)

/-- An id that is not registered stays so until it is registered. -/
theorem not_mem_foldl_dirStep {id : String} (post : List Op) (d : List Reg)
    (hd : ¬ ∃ r ∈ d, r.id = id) (hu : ∀ n ty w, .register n ty id w ∉ post) :
    ¬ ∃ r ∈ post.foldl dirStep d, r.id = id := by
  induction post generalizing d with
  | nil => exact hd
  | cons op post ih =>
    rw [List.foldl_cons]
    refine ih _ ?_ (fun n ty w h => hu n ty w (List.mem_cons_of_mem _ h))
    rintro ⟨r, hr, hid⟩
    cases op with
    | register n ty i w =>
      simp only [dirStep] at hr
      split at hr
      · exact hd ⟨r, hr, hid⟩
      · rcases List.mem_append.1 hr with h | h
        · exact hd ⟨r, h, hid⟩
        · rw [List.mem_singleton] at h; subst h
          simp only at hid; subst hid
          exact hu n ty w List.mem_cons_self
    | unregister n i w => exact hd ⟨r, (List.mem_filter.1 hr).1, hid⟩
    | clear n => exact hd ⟨r, (List.mem_filter.1 hr).1, hid⟩

variable {cfg : Nat → NodeCfg} {own : String → Nat} {d : List Reg} {dead : List Nat} {W : World}

theorem refines_found (hR : Refines cfg own d dead W) {r : Reg} (hr : r ∈ d) :
    (∀ m, m ∉ dead → ∃ a, getByID cfg W m r.id = .ok a ∧ a.actorId = r.id ∧
      a.node = (cfg r.node).nodeID ∧ a.ip = (cfg r.node).ip ∧ a.port = (cfg r.node).port) ∧
    r.addr cfg ∈ getByType W r.ty := by
  refine ⟨fun m hm => ?_, (hR.tys _ _).2 ⟨r, hr, rfl, rfl⟩⟩
  simp only [getByID, if_neg (hR.wf r hr).1]
  by_cases h : W.idmap m r.id = true
  · rw [if_pos h]
    obtain ⟨s, hs, hid, hn⟩ := (hR.idmap m hm r.id).1 h
    rw [reg_unique hR.nodup hs hr hid] at hn
    subst hn
    exact ⟨_, rfl, rfl, rfl, rfl, rfl⟩
  · rw [if_neg h, (hR.ids r.id (r.addr cfg)).2 ⟨r, hr, rfl, rfl⟩]
    exact ⟨_, rfl, rfl, rfl, rfl, rfl⟩

theorem refines_not_found (hR : Refines cfg own d dead W) {id : String}
    (hid : ¬ ∃ r ∈ d, r.id = id) :
    (∀ m, m ∉ dead → ∀ a, getByID cfg W m id ≠ .ok a) ∧
    ∀ ty a, a ∈ getByType W ty → a.actorId ≠ id := by
  refine ⟨fun m hm a h => ?_, fun ty a ha h => ?_⟩
  · simp only [getByID] at h
    by_cases h0 : id = ""
    · rw [if_pos h0] at h; cases h
    · rw [if_neg h0] at h
      by_cases h1 : W.idmap m id = true
      · obtain ⟨s, hs, hi, -⟩ := (hR.idmap m hm id).1 h1
        exact hid ⟨s, hs, hi⟩
      · rw [if_neg h1] at h
        cases h2 : W.redis.ids id with
        | none => rw [h2] at h; cases h
        | some b =>
          obtain ⟨s, hs, hi, -⟩ := (hR.ids id b).1 h2
          exact hid ⟨s, hs, hi⟩
  · obtain ⟨s, hs, -, rfl⟩ := (hR.tys ty a).1 ha
    exact hid ⟨s, hs, h⟩

end Braid.AddressBook
