import Verif.Book.Inv

/-
Every step keeps the invariant.
-/
namespace Braid.Book
open AddressBook Book.Spec
open AddressBook.Spec (Reg weightOf)

variable {cfg : Nat → NodeCfg} {own : String → Nat}

theorem inv_init : Inv cfg own (fun _ => ⟨"", 0, false, false, false, false, false⟩) [] init := by
  have hstop : ∀ n, ¬ Stopped [] n := by rintro n ⟨g, h⟩; cases h
  refine ⟨⟨?_, ?_, ?_, ?_, ?_⟩, ?_, ?_, ?_, ?_, ?_, ?_, ?_, ?_, ?_, ?_, ?_⟩
  · intro id; rfl
  · intro ty a; simp [init, World.init]
  · intro n id; simp [init, World.init]
  · exact ⟨[], List.nodup_nil, fun _ _ => ⟨rfl, rfl⟩, fun n fl => rfl⟩
  · intro id h; cases h
  · intro g o; simp [activeOf, active, init, Pc.op]
  · intro g g' o o' id h; cases h
  · intro g g' n h; cases h
  · intro g n h; cases h
  · intro g o id h; cases h
  · intro r hr; cases hr
  · exact .nil
  · intro r hr; cases hr
  · intro id _ _ _; exact ⟨rfl, rfl, rfl, rfl, rfl⟩
  · intro g; trivial
  · intro n hn; exact absurd hn (hstop n)

/-- `Clear` ends. -/
theorem inv_cleared {F : String → Foot} {h : List Ev} {s : State} (hi : Inv cfg own F h s) {g n : Nat}
    (hpc : s.pc g = .cPipe n []) {r : Res} :
    Inv cfg own F (h ++ [.finish g (.clear n) r]) { s with pc := upd s.pc g .idle } := by
  have ho : (s.pc g).op = some (.clear n) := by rw [hpc]; rfl
  have hdir : dir (h ++ [.finish g (.clear n) r]) = dir h := by rw [dir_concat]; rfl
  have hop : ∀ g' o', (upd s.pc g .idle g').op = some o' → g' ≠ g ∧ (s.pc g').op = some o' := by
    intro g' o' h1
    by_cases he : g' = g
    · subst he; simp [Pc.op] at h1
    · rw [upd_of_ne _ _ he] at h1; exact ⟨he, h1⟩
  have hbusy : ∀ g' x, (upd s.pc g .idle g').busy x ↔ (s.pc g').busy x := by
    intro g' x
    by_cases he : g' = g
    · subst he
      rw [hpc]
      simp [Pc.busy]
    · rw [upd_of_ne _ _ he]
  refine ⟨hi.impl, ?_, ?_, ?_, ?_, ?_, ?_, ?_, ?_, ?_, ?_, ?_⟩
  · intro g' o'
    rw [activeOf_finish, List.mem_filter, hi.act]
    constructor
    · rintro ⟨h1, h2⟩
      dsimp only
      rw [upd_of_ne _ _ (by simpa using h2)]
      exact h1
    · intro h1
      obtain ⟨h2, h3⟩ := hop _ _ h1
      exact ⟨h3, by simpa using h2⟩
  · intro g1 g2 o1 o2 x h1 h2
    exact hi.excl g1 g2 o1 o2 x (hop _ _ h1).2 (hop _ _ h2).2
  · intro g1 g2 m h1 h2
    exact hi.excln g1 g2 m (hop _ _ h1).2 (hop _ _ h2).2
  · intro g' m h1
    rw [stopped_finish]; exact hi.clr g' m (hop _ _ h1).2
  · intro g' o' x h1
    rw [stopped_finish]; exact hi.live g' o' x (hop _ _ h1).2
  · intro r' hr'
    rw [hdir] at hr'
    rw [stopped_finish]
    exact hi.dirOn r' hr'
  · rw [hdir]; exact hi.dirNodup
  · simp only [hbusy, hdir]; exact hi.dirFree
  · intro x h1 h2 h3
    rw [hdir] at h1
    rw [stopped_finish] at h3
    simp only [hbusy] at h2
    exact hi.off x h1 h2 h3
  · intro g'
    dsimp only
    by_cases he : g' = g
    · subst he; rw [upd_same]; trivial
    · rw [upd_of_ne _ _ he]; exact hi.pcs g'
  · intro m hm hg
    rw [stopped_finish] at hm
    by_cases hmn : m = n
    · subst hmn
      have hp := hi.pcs g
      rw [hpc] at hp
      obtain ⟨h1, h2, h3, h4, -⟩ := hp
      have h3' := h3.resolve_left (by simp)
      refine ⟨fun id hid => ⟨?_, ?_, (h3'.2 id hid).1, (h3'.2 id hid).2⟩, h3'.1, h4.resolve_left (by simp)⟩
      · cases hx : (F id).inIds with
        | false => rfl
        | true => simpa using h2 id hid hx
      · cases hx : (F id).inTys with
        | false => rfl
        | true => simpa using h1 id hid hx
    · refine hi.done m hm fun g' hc => ?_
      by_cases he : g' = g
      · subst he
        rw [ho] at hc; cases hc
        exact hmn rfl
      · exact hg g' (by dsimp only; rw [upd_of_ne _ _ he]; exact hc)

/-- An id that a node does not have in its `IDMap` is not in the directory. -/
theorem not_dir {F : String → Foot} {h : List Ev} {s : State} (hi : Inv cfg own F h s) {id : String}
    (hm : s.W.idmap (own id) id = false) : ∀ r ∈ dir h, r.id ≠ id := by
  rintro r hr rfl
  have := (hi.impl.idmap (own r.id) r.id).2 ⟨rfl, by rw [(hi.dirOn r hr).1]; rfl⟩
  rw [hm] at this; cases this

theorem busy_not_dir {F : String → Foot} {h : List Ev} {s : State} (hi : Inv cfg own F h s) {g : Nat} {id : String}
    (hb : (s.pc g).busy id) : ∀ r ∈ dir h, r.id ≠ id := by
  rintro r hr rfl
  exact hi.dirFree r hr g hb

theorem load_other (hd : ∀ m n, (cfg m).nodeID = (cfg n).nodeID → m = n) {W : World} {n : Nat} {fl : Field} {d : Int} :
    ∀ m, m ≠ n → (exec1 W (.hincr (cfg n).nodeID fl d)).redis.load (cfg m).nodeID = W.redis.load (cfg m).nodeID ∧
      (exec1 W (.hincr (cfg n).nodeID fl d)).redis.nodes (cfg m).nodeID = W.redis.nodes (cfg m).nodeID := by
  intro m hm
  simp only [exec1, Redis.run, set_apply]
  exact ⟨if_neg fun h => hm (hd _ _ h), trivial⟩

/-- `Register` executes a command. -/
theorem inv_rPipe (hd : ∀ m n, (cfg m).nodeID = (cfg n).nodeID → m = n) {F : String → Foot} {h : List Ev} {s : State}
    (hi : Inv cfg own F h s) {g n k : Nat} {ty id : String} {w : Int} (hpc : s.pc g = .rPipe n ty id w k) {c : Cmd}
    (hc : (registerCmds cfg n ty id w)[k]? = some c) :
    ∃ F', Inv cfg own F' h ⟨exec1 s.W c, upd s.pc g (.rPipe n ty id w (k + 1))⟩ := by
  have ho : (s.pc g).op = some (.reg n ty id w) := by rw [hpc]; rfl
  have hw : Writes (.reg n ty id w) id := .inl ⟨_, _, _, rfl⟩
  have hnd := busy_not_dir hi (g := g) (id := id) (by rw [hpc]; rfl)
  have hp := hi.pcs g
  rw [hpc] at hp
  obtain ⟨h1, h2, h3, h4, h5⟩ := hp
  subst h1
  have hcase : k = 0 ∨ k = 1 ∨ k = 2 ∨ k = 3 ∨ k = 4 ∨ 5 ≤ k := by omega
  rcases hcase with rfl | rfl | rfl | rfl | rfl | hk
  · simp only [registerCmds, List.getElem?_cons_zero, Option.some.injEq] at hc
    subst hc
    have := impl_hsetId hi.impl id
    rw [h5] at this
    exact ⟨_, inv_write hi ho hw hnd (by exact rfl) (by exact rfl) this ⟨rfl, h2, h3, by omega, by rw [upd_same]; rfl⟩
      fun m _ => ⟨rfl, rfl⟩⟩
  · simp only [registerCmds, List.getElem?_cons_succ, List.getElem?_cons_zero, Option.some.injEq] at hc
    subst hc
    have := impl_sadd hi.impl id
    rw [h5] at this
    exact ⟨_, inv_write hi ho hw hnd (by exact rfl) (by exact rfl) this ⟨rfl, h2, h3, by omega, by rw [upd_same]; rfl⟩
      fun m _ => ⟨rfl, rfl⟩⟩
  · simp only [registerCmds, List.getElem?_cons_succ, List.getElem?_cons_zero, Option.some.injEq] at hc
    subst hc
    have := impl_hsetNode hi.impl (cfg (own id)).nodeID (nodeAddr cfg (own id))
    rw [← upd_self F id] at this
    refine ⟨_, inv_write hi ho hw hnd (by exact rfl) (by exact rfl) this ⟨rfl, h2, h3, by omega, by rw [upd_same, h5]; rfl⟩ fun m hm => ⟨rfl, ?_⟩⟩
    simp only [exec1, Redis.run, set_apply]
    exact if_neg fun h => hm (hd _ _ h)
  · simp only [registerCmds, List.getElem?_cons_succ, List.getElem?_cons_zero, Option.some.injEq] at hc
    subst hc
    have := impl_incr hd hi.impl id (fl := .actor ty) (d := w) (f := ⟨ty, w, true, true, true, false, false⟩)
      (by rw [h5]; simp) (by rw [h5]; simp) (by rw [h5]; simp [Foot.counted])
      (by rw [h5]; intro fl' hf; cases fl' <;> simp [Foot.counted] at hf ⊢; exact fun h => hf h.symm)
    exact ⟨_, inv_write hi ho hw hnd (by exact rfl) (by exact rfl) this ⟨rfl, h2, h3, by omega, by rw [upd_same]; rfl⟩ (load_other hd)⟩
  · simp only [registerCmds, List.getElem?_cons_succ, List.getElem?_cons_zero, Option.some.injEq] at hc
    subst hc
    have := impl_incr hd hi.impl id (fl := .total) (d := w) (f := ⟨ty, w, true, true, true, true, false⟩)
      (by rw [h5]; simp) (.inl rfl) (by rw [h5]; simp [Foot.counted])
      (by rw [h5]; intro fl' hf; cases fl' <;> simp [Foot.counted] at hf ⊢)
    exact ⟨_, inv_write hi ho hw hnd (by exact rfl) (by exact rfl) this ⟨rfl, h2, h3, by omega, by rw [upd_same]; rfl⟩ (load_other hd)⟩
  · rw [List.getElem?_eq_none (by simpa [registerCmds] using hk)] at hc
    cases hc

/-- `Unregister` executes a command. -/
theorem inv_uPipe (hd : ∀ m n, (cfg m).nodeID = (cfg n).nodeID → m = n) {F : String → Foot} {h : List Ev} {s : State}
    (hi : Inv cfg own F h s) {g n k : Nat} {a : Addr} {id : String} {w : Int} (hpc : s.pc g = .uPipe n a id w k) {c : Cmd}
    (hc : (unregisterCmds cfg n a id w)[k]? = some c) :
    ∃ F', Inv cfg own F' h ⟨exec1 s.W c, upd s.pc g (.uPipe n a id w (k + 1))⟩ := by
  have ho : (s.pc g).op = some (.unreg n id w) := by rw [hpc]; rfl
  have hw : Writes (.unreg n id w) id := .inr ⟨_, _, rfl⟩
  have hnd := busy_not_dir hi (g := g) (id := id) (by rw [hpc]; rfl)
  have hp := hi.pcs g
  rw [hpc] at hp
  obtain ⟨h1, h2, h3, h5⟩ := hp
  subst h1
  have hcase : k = 0 ∨ k = 1 ∨ k = 2 ∨ k = 3 ∨ 4 ≤ k := by omega
  rcases hcase with rfl | rfl | rfl | rfl | hk
  · simp only [unregisterCmds, List.getElem?_cons_zero, Option.some.injEq] at hc
    subst hc
    have := impl_hdelId hi.impl id
    rw [h5] at this
    exact ⟨_, inv_write hi ho hw hnd (by exact rfl) (by exact rfl) this ⟨rfl, h2, by omega, by rw [upd_same]; rfl⟩ fun m _ => ⟨rfl, rfl⟩⟩
  · simp only [unregisterCmds, List.getElem?_cons_succ, List.getElem?_cons_zero, Option.some.injEq] at hc
    subst hc
    have := impl_srem hi.impl id
    rw [h5] at this
    rw [← h2] at this
    exact ⟨_, inv_write hi ho hw hnd (by exact rfl) (by exact rfl) this ⟨rfl, h2, by omega, by rw [upd_same]; rfl⟩ fun m _ => ⟨rfl, rfl⟩⟩
  · simp only [unregisterCmds, List.getElem?_cons_succ, List.getElem?_cons_zero, Option.some.injEq] at hc
    subst hc
    have := impl_incr hd hi.impl id (fl := .actor a.actorTy) (d := -w) (f := ⟨a.actorTy, w, false, false, false, true, true⟩)
      (by rw [h5]; simp) (by rw [h5]; simp) (by rw [h5]; simp [Foot.counted]; omega)
      (by rw [h5]; intro fl' hf; cases fl' <;> simp [Foot.counted] at hf ⊢; exact fun h => hf h.symm)
    exact ⟨_, inv_write hi ho hw hnd (by exact rfl) (by exact rfl) this ⟨rfl, h2, by omega, by rw [upd_same]; rfl⟩ (load_other hd)⟩
  · simp only [unregisterCmds, List.getElem?_cons_succ, List.getElem?_cons_zero, Option.some.injEq] at hc
    subst hc
    have := impl_incr hd hi.impl id (fl := .total) (d := -w) (f := ⟨a.actorTy, w, false, false, false, false, true⟩)
      (by rw [h5]; simp) (.inl rfl) (by rw [h5]; simp [Foot.counted]; omega)
      (by rw [h5]; intro fl' hf; cases fl' <;> simp [Foot.counted] at hf ⊢)
    exact ⟨_, inv_write hi ho hw hnd (by exact rfl) (by exact rfl) this ⟨rfl, h2, by omega, by rw [upd_same]; rfl⟩ (load_other hd)⟩
  · rw [List.getElem?_eq_none (by simpa [unregisterCmds] using hk)] at hc
    cases hc

/-- `Clear` executes a command. -/
theorem inv_cPipe (hd : ∀ m n, (cfg m).nodeID = (cfg n).nodeID → m = n) {F : String → Foot} {h : List Ev} {s : State}
    (hi : Inv cfg own F h s) {g n : Nat} {c : Cmd} {cmds : List Cmd} (hpc : s.pc g = .cPipe n (c :: cmds)) :
    ∃ F', Inv cfg own F' h ⟨exec1 s.W c, upd s.pc g (.cPipe n cmds)⟩ := by
  have ho : (s.pc g).op = some (.clear n) := by rw [hpc]; rfl
  have hp := hi.pcs g
  rw [hpc] at hp
  obtain ⟨h1, h2, h3, h4, h5⟩ := hp
  have htail : ∀ {F' : String → Foot}, (∀ x, (F' x).ty = (F x).ty) → ∀ c ∈ cmds, CmdOk cfg own F' n c ∨
      c = .delLoad (cfg n).nodeID ∨ c = .hdelNode (cfg n).nodeID := by
    intro F' hty c' hc'
    rcases h5 c' (List.mem_cons_of_mem _ hc') with ⟨x, hx, hh⟩ | hh
    · exact .inl ⟨x, hx, by rw [hty]; exact hh⟩
    · exact .inr hh
  rcases h5 c (by simp) with ⟨id, hid, rfl | rfl⟩ | rfl | rfl
  · -- HDEL of an id
    refine ⟨_, inv_clear hi ho rfl (fun x hx => upd_of_ne _ _ fun hc => hx (hc ▸ hid)) (impl_hdelId hi.impl id) ?_
      fun m _ => ⟨rfl, rfl⟩⟩
    have hfl : ∀ x, (upd F id { F id with inIds := false } x).ty = (F x).ty ∧
        (upd F id { F id with inIds := false } x).inTys = (F x).inTys ∧
        (upd F id { F id with inIds := false } x).cntTy = (F x).cntTy ∧
        (upd F id { F id with inIds := false } x).cntTot = (F x).cntTot := by
      intro x; rw [upd_apply]; split
      · rename_i he; subst he; exact ⟨rfl, rfl, rfl, rfl⟩
      · exact ⟨rfl, rfl, rfl, rfl⟩
    refine ⟨fun x hx hi' => ?_, fun x hx hi' => ?_, ?_, ?_, htail fun x => (hfl x).1⟩
    · rw [(hfl x).2.1] at hi'
      rw [(hfl x).1]
      exact (List.mem_cons.1 (h1 x hx hi')).resolve_left (by simp)
    · by_cases he : x = id
      · subst he; dsimp only at hi'; rw [upd_same] at hi'; cases hi'
      · dsimp only at hi'
        rw [upd_of_ne _ _ he] at hi'
        exact (List.mem_cons.1 (h2 x hx hi')).resolve_left (by simpa using he)
    · rcases h3 with h3 | h3
      · exact .inl ((List.mem_cons.1 h3).resolve_left (by simp))
      · refine .inr ⟨h3.1, fun x hx => ?_⟩
        rw [(hfl x).2.2.1, (hfl x).2.2.2]
        exact h3.2 x hx
    · rcases h4 with h4 | h4
      · exact .inl ((List.mem_cons.1 h4).resolve_left (by simp))
      · exact .inr h4
  · -- SREM
    subst hid
    refine ⟨_, inv_clear hi ho rfl (fun x hx => upd_of_ne _ _ fun hc => hx (by rw [hc])) (impl_srem hi.impl id) ?_
      fun m _ => ⟨rfl, rfl⟩⟩
    have hfl : ∀ x, (upd F id { F id with inTys := false } x).ty = (F x).ty ∧
        (upd F id { F id with inTys := false } x).inIds = (F x).inIds ∧
        (upd F id { F id with inTys := false } x).cntTy = (F x).cntTy ∧
        (upd F id { F id with inTys := false } x).cntTot = (F x).cntTot := by
      intro x; rw [upd_apply]; split
      · rename_i he; subst he; exact ⟨rfl, rfl, rfl, rfl⟩
      · exact ⟨rfl, rfl, rfl, rfl⟩
    refine ⟨fun x hx hi' => ?_, fun x hx hi' => ?_, ?_, ?_, htail fun x => (hfl x).1⟩
    · by_cases he : x = id
      · subst he; dsimp only at hi'; rw [upd_same] at hi'; cases hi'
      · rw [(hfl x).1]
        dsimp only at hi'
        rw [upd_of_ne _ _ he] at hi'
        refine (List.mem_cons.1 (h1 x hx hi')).resolve_left fun hc => he ?_
        simp only [Cmd.srem.injEq] at hc
        exact (addrOf_inj hc.2).2
    · rw [(hfl x).2.1] at hi'
      exact (List.mem_cons.1 (h2 x hx hi')).resolve_left (by simp)
    · rcases h3 with h3 | h3
      · exact .inl ((List.mem_cons.1 h3).resolve_left (by simp))
      · refine .inr ⟨h3.1, fun x hx => ?_⟩
        rw [(hfl x).2.2.1, (hfl x).2.2.2]
        exact h3.2 x hx
    · rcases h4 with h4 | h4
      · exact .inl ((List.mem_cons.1 h4).resolve_left (by simp))
      · exact .inr h4
  · -- DEL of the hash
    refine ⟨_, inv_clear hi ho rfl (fun x hx => if_neg hx) (impl_delLoad hd hi.impl n) ?_ fun m hm => ⟨?_, rfl⟩⟩
    · have hfl : ∀ x, (if own x = n then { F x with cntTy := false, cntTot := false } else F x).ty = (F x).ty ∧
          (if own x = n then { F x with cntTy := false, cntTot := false } else F x).inIds = (F x).inIds ∧
          (if own x = n then { F x with cntTy := false, cntTot := false } else F x).inTys = (F x).inTys := by
        intro x; split <;> exact ⟨rfl, rfl, rfl⟩
      refine ⟨fun x hx hi' => ?_, fun x hx hi' => ?_, ?_, ?_, htail fun x => (hfl x).1⟩
      · rw [(hfl x).2.2] at hi'
        rw [(hfl x).1]
        exact (List.mem_cons.1 (h1 x hx hi')).resolve_left (by simp)
      · rw [(hfl x).2.1] at hi'
        exact (List.mem_cons.1 (h2 x hx hi')).resolve_left (by simp)
      · refine .inr ⟨by simp [exec1, Redis.run], fun x hx => ?_⟩
        dsimp only
        rw [if_pos hx]
        exact ⟨rfl, rfl⟩
      · rcases h4 with h4 | h4
        · exact .inl ((List.mem_cons.1 h4).resolve_left (by simp))
        · exact .inr h4
    · simp only [exec1, Redis.run, set_apply]
      exact if_neg fun h => hm (hd _ _ h)
  · -- HDEL of the node
    refine ⟨_, inv_clear hi ho rfl (fun x hx => rfl) (impl_hdelNode hi.impl _) ?_ fun m hm => ⟨rfl, ?_⟩⟩
    · refine ⟨fun x hx hi' => ?_, fun x hx hi' => ?_, ?_, ?_, htail fun x => rfl⟩
      · exact (List.mem_cons.1 (h1 x hx hi')).resolve_left (by simp)
      · exact (List.mem_cons.1 (h2 x hx hi')).resolve_left (by simp)
      · rcases h3 with h3 | h3
        · exact .inl ((List.mem_cons.1 h3).resolve_left (by simp))
        · exact .inr h3
      · exact .inr (by simp [exec1, Redis.run])
    · simp only [exec1, Redis.run, set_apply]
      exact if_neg fun h => hm (hd _ _ h)

/-- `Clear` looks at a type. -/
theorem inv_cMem (hd : ∀ m n, (cfg m).nodeID = (cfg n).nodeID → m = n) {F : String → Foot} {h : List Ev} {s : State}
    (hi : Inv cfg own F h s) {g n : Nat} {ty : String} {tys : List String} {cmds : List Cmd}
    (hpc : s.pc g = .cMem n (ty :: tys) cmds) :
    Inv cfg own F h { s with pc := upd s.pc g (.cMem n tys (cmds ++ clearTy cfg n ty (s.W.redis.tys ty))) } := by
  have hp := hi.pcs g
  rw [hpc] at hp
  obtain ⟨h1, h2, h3⟩ := hp
  refine inv_stay hi (by rw [hpc]; rfl) (by rw [hpc]; intro x; rfl) ⟨h1, fun id hid hin => ?_, fun c hc => ?_⟩
  · rcases h2 id hid hin with h | h
    · rcases List.mem_cons.1 h with rfl | h
      · right
        have hty : (F id).inTys = true := by
          rcases h1 id hid with h | ⟨_, _, h⟩
          · rw [h.1] at hin; cases hin
          · rw [h]; rfl
        have hm : addrOf cfg n (F id).ty id ∈ s.W.redis.tys (F id).ty :=
          (hi.impl.tys _ _).2 ⟨id, hty, rfl, by rw [hid]⟩
        have hcl : ∀ c, c = .srem (F id).ty (addrOf cfg n (F id).ty id) ∨ c = .hdelId id →
            c ∈ clearTy cfg n (F id).ty (s.W.redis.tys (F id).ty) := by
          intro c hc
          unfold clearTy
          rw [List.mem_flatMap]
          refine ⟨addrOf cfg n (F id).ty id, List.mem_filter.2 ⟨hm, by simp [addrOf]⟩, ?_⟩
          rcases hc with rfl | rfl <;> simp [addrOf]
        exact ⟨List.mem_append_right _ (hcl _ (.inl rfl)), List.mem_append_right _ (hcl _ (.inr rfl))⟩
      · exact .inl h
    · exact .inr ⟨List.mem_append_left _ h.1, List.mem_append_left _ h.2⟩
  · rcases List.mem_append.1 hc with hc | hc
    · exact h3 c hc
    · unfold clearTy at hc
      rw [List.mem_flatMap] at hc
      obtain ⟨a, ha, hc⟩ := hc
      rw [List.mem_filter] at ha
      obtain ⟨id, -, h5, h6⟩ := (hi.impl.tys _ _).1 ha.1
      have hown : own id = n := by
        have := ha.2
        rw [h6] at this
        exact hd _ _ (of_decide_eq_true this)
      refine ⟨id, hown, ?_⟩
      subst h6
      subst h5
      simp only [List.mem_cons, List.not_mem_nil, or_false] at hc
      rcases hc with rfl | rfl
      · right; rw [hown]
      · left; rfl

/-- Every step keeps the invariant if the calls follow the rules and Redis does not fail. -/
theorem inv_step (hd : ∀ m n, (cfg m).nodeID = (cfg n).nodeID → m = n) {F : String → Foot} {h : List Ev} {s s' : State}
    {a : Act} {evs : List Ev} (hi : Inv cfg own F h s) (hs : step cfg s a = some (s', evs))
    (hl : LegalHist own (h ++ evs)) (hu : Unbroken (h ++ evs)) : ∃ F', Inv cfg own F' (h ++ evs) s' := by
  have hbr : ∀ {g o}, evs = [.finish g o .broken] → (∃ n id, o = .get n id) ∨ ∃ ty, o = .list ty := by
    intro g o he
    exact hu g o (by rw [he]; simp)
  cases a with
  | start g o =>
    simp only [step] at hs
    split at hs
    · rename_i hpc
      simp only [Option.some.injEq, Prod.mk.injEq] at hs
      obtain ⟨rfl, rfl⟩ := hs
      exact ⟨F, inv_begin hi hpc (hl h g o [] rfl)⟩
    · cases hs
  | range g tys =>
    simp only [step, stepRange, at_] at hs
    split at hs
    · rename_i n hpc
      split at hs
      · rename_i hperm
        simp only [Option.some.injEq, Prod.mk.injEq] at hs
        obtain ⟨rfl, rfl⟩ := hs
        rw [List.append_nil]
        have hp := hi.pcs g
        rw [hpc] at hp
        refine ⟨F, inv_stay hi (by rw [hpc]; rfl) (by rw [hpc]; intro x; rfl) ⟨hp, fun id hid hin => .inl ?_, by simp⟩⟩
        have hcnt : (F id).cntTy = true := by
          rcases hp id hid with h | ⟨_, _, h⟩
          · rw [h.1] at hin; cases hin
          · rw [h]; rfl
        have := hi.impl.fields id hcnt
        rw [hid] at this
        exact (List.isPerm_iff.1 hperm).mem_iff.2 (mem_typesOf_iff_hget.2 this)
      · cases hs
    · cases hs
  | fail g =>
    simp only [step, stepFail, ret] at hs
    split at hs
    all_goals first
      | (cases hs; done)
      | skip
    all_goals
      simp only [Option.some.injEq, Prod.mk.injEq] at hs
      obtain ⟨rfl, rfl⟩ := hs
      rename_i hpc
      have hb := hbr rfl
      first
        | exact ⟨F, inv_looked hi (by rw [hpc]; rfl) hb⟩
        | (rcases hb with ⟨_, _, hb⟩ | ⟨_, hb⟩ <;> cases hb; done)
  | go g =>
    have hp := hi.pcs g
    simp only [step, stepGo, ret, at_] at hs
    split at hs
    · cases hs
    · -- rBook
      rename_i n ty id w hpc
      have ho : (s.pc g).op = some (.reg n ty id w) := by rw [hpc]; rfl
      have hw : Writes (.reg n ty id w) id := .inl ⟨_, _, _, rfl⟩
      rw [hpc] at hp
      have href : Inv cfg own (upd F id (F id)) (h ++ [.finish g (.reg n ty id w) .refused])
          ⟨s.W, upd s.pc g .idle⟩ :=
        inv_end hi ho hw (by rw [upd_self]; exact hi.impl) (fun _ _ => ⟨rfl, rfl⟩) (.inr rfl)
          (.inl ⟨by rw [dir_concat]; rfl, .inr ⟨rfl, by rw [hpc]; exact fun _ h => h⟩⟩)
      split at hs
      · simp only [Option.some.injEq, Prod.mk.injEq] at hs
        obtain ⟨rfl, rfl⟩ := hs
        exact ⟨_, href⟩
      · rename_i hne
        split at hs
        · simp only [Option.some.injEq, Prod.mk.injEq] at hs
          obtain ⟨rfl, rfl⟩ := hs
          exact ⟨_, href⟩
        · rename_i hmap
          simp only [Option.some.injEq, Prod.mk.injEq] at hs
          obtain ⟨rfl, rfl⟩ := hs
          rw [List.append_nil]
          have hnd : ∀ r ∈ dir h, r.id ≠ id := not_dir hi (by rw [show own id = n from hp]; simpa using hmap)
          have hoff : (F id).Off := by
            refine hi.off id hnd (fun g' hg => ?_) (hi.live g _ id ho hw)
            obtain ⟨o', h1, h2⟩ := busy_op hg
            have := hi.excl _ _ _ _ _ h1 ho (.inl h2) (.inl hw)
            subst this
            rw [hpc] at hg
            exact hg
          exact ⟨_, inv_write hi ho hw hnd (by exact rfl) (by exact rfl) (impl_off hi.impl hoff ty w)
            ⟨hp, fun h => hne (.inl h), fun h => hne (.inr h), by omega, by rw [upd_same]; rfl⟩ fun _ _ => ⟨rfl, rfl⟩⟩
    · -- rPipe
      rename_i n ty id w k hpc
      split at hs
      · rename_i c hc
        simp only [Option.some.injEq, Prod.mk.injEq] at hs
        obtain ⟨rfl, rfl⟩ := hs
        rw [List.append_nil]
        exact inv_rPipe hd hi hpc hc
      · rename_i hc
        simp only [Option.some.injEq, Prod.mk.injEq] at hs
        obtain ⟨rfl, rfl⟩ := hs
        rw [List.append_nil]
        rw [hpc] at hp
        obtain ⟨h1, h2, h3, h4, h5⟩ := hp
        have hk : k = 5 := by
          have := List.getElem?_eq_none_iff.1 hc
          simp only [registerCmds, List.length_cons, List.length_nil] at this
          omega
        subst hk
        exact ⟨F, inv_stay hi (by rw [hpc]; rfl) (by rw [hpc]; intro x; rfl) ⟨h1, h2, h3, h5⟩⟩
    · -- rIdmap
      rename_i n ty id w hpc
      simp only [Option.some.injEq, Prod.mk.injEq] at hs
      obtain ⟨rfl, rfl⟩ := hs
      rw [hpc] at hp
      obtain ⟨h1, h2, h3, h5⟩ := hp
      subst h1
      have hnd := busy_not_dir hi (g := g) (id := id) (by rw [hpc]; rfl)
      have := impl_setIdmap hi.impl id true
      rw [h5] at this
      exact ⟨_, inv_end hi (o := .reg (own id) ty id w) (by rw [hpc]; rfl) (.inl ⟨_, _, _, rfl⟩) this
        (fun _ _ => ⟨rfl, rfl⟩) (.inl hnd)
        (.inr ⟨own id, ty, w, by rw [dir_concat]; rfl, rfl, rfl, h2, h3, hnd⟩)⟩
    · -- uGet
      rename_i n id w hpc
      have ho : (s.pc g).op = some (.unreg n id w) := by rw [hpc]; rfl
      have hw : Writes (.unreg n id w) id := .inr ⟨_, _, rfl⟩
      rw [hpc] at hp
      have hend : ∀ r, (F id).Off → Inv cfg own (upd F id (F id)) (h ++ [.finish g (.unreg n id w) r])
          ⟨s.W, upd s.pc g .idle⟩ := fun r hoff =>
        inv_end hi ho hw (by rw [upd_self]; exact hi.impl) (fun _ _ => ⟨rfl, rfl⟩) (.inr rfl)
          (.inl ⟨by rw [dir_concat]; rfl, .inl hoff⟩)
      split at hs
      · rename_i hemp
        simp only [Option.some.injEq, Prod.mk.injEq] at hs
        obtain ⟨rfl, rfl⟩ := hs
        exact ⟨_, hend _ (hp.2.resolve_right fun h => h.1 hemp)⟩
      · split at hs
        · rename_i hids
          simp only [Option.some.injEq, Prod.mk.injEq] at hs
          obtain ⟨rfl, rfl⟩ := hs
          refine ⟨_, hend _ (hp.2.resolve_right ?_)⟩
          rintro ⟨-, ty, hf⟩
          rw [hi.impl.ids, hf] at hids
          cases hids
        · rename_i a hids
          simp only [Option.some.injEq, Prod.mk.injEq] at hs
          obtain ⟨rfl, rfl⟩ := hs
          rw [List.append_nil]
          rcases hp.2 with hoff | ⟨hne, ty, hf⟩
          · rw [hi.impl.ids, if_neg (by rw [hoff.1]; simp)] at hids
            cases hids
          · rw [hi.impl.ids, hf] at hids
            simp only [Foot.full, if_true, Option.some.injEq] at hids
            subst hids
            refine ⟨F, inv_stay hi (by rw [hpc]; rfl) (by rw [hpc]; intro x; rfl) ⟨hp.1, by rw [hp.1]; rfl, by omega, ?_⟩⟩
            rw [hf]; rfl
    · -- uPipe
      rename_i n a id w k hpc
      split at hs
      · rename_i c hc
        simp only [Option.some.injEq, Prod.mk.injEq] at hs
        obtain ⟨rfl, rfl⟩ := hs
        rw [List.append_nil]
        exact inv_uPipe hd hi hpc hc
      · rename_i hc
        simp only [Option.some.injEq, Prod.mk.injEq] at hs
        obtain ⟨rfl, rfl⟩ := hs
        rw [List.append_nil]
        rw [hpc] at hp
        obtain ⟨h1, h2, h4, h5⟩ := hp
        have hk : k = 4 := by
          have := List.getElem?_eq_none_iff.1 hc
          simp only [unregisterCmds, List.length_cons, List.length_nil] at this
          omega
        subst hk
        refine ⟨F, inv_stay hi (by rw [hpc]; rfl) (by rw [hpc]; intro x; rfl) ⟨h1, ?_⟩⟩
        rw [h5]
        exact ⟨rfl, rfl, rfl, rfl⟩
    · -- uIdmap
      rename_i n id w hpc
      simp only [Option.some.injEq, Prod.mk.injEq] at hs
      obtain ⟨rfl, rfl⟩ := hs
      rw [hpc] at hp
      obtain ⟨h1, h2, h3, h4, h5⟩ := hp
      subst h1
      have hnd := busy_not_dir hi (g := g) (id := id) (by rw [hpc]; rfl)
      exact ⟨_, inv_end hi (o := .unreg (own id) id w) (by rw [hpc]; rfl) (.inr ⟨_, _, rfl⟩) (impl_setIdmap hi.impl id false)
        (fun _ _ => ⟨rfl, rfl⟩) (.inl hnd) (.inl ⟨by rw [dir_concat]; rfl, .inl ⟨h2, h3, h4, h5, rfl⟩⟩)⟩
    · -- gBook
      rename_i n id hpc
      have ho : (s.pc g).op = some (.get n id) := by rw [hpc]; rfl
      split at hs
      · simp only [Option.some.injEq, Prod.mk.injEq] at hs
        obtain ⟨rfl, rfl⟩ := hs
        exact ⟨F, inv_looked hi ho (.inl ⟨_, _, rfl⟩)⟩
      · split at hs
        · simp only [Option.some.injEq, Prod.mk.injEq] at hs
          obtain ⟨rfl, rfl⟩ := hs
          exact ⟨F, inv_looked hi ho (.inl ⟨_, _, rfl⟩)⟩
        · simp only [Option.some.injEq, Prod.mk.injEq] at hs
          obtain ⟨rfl, rfl⟩ := hs
          rw [List.append_nil]
          exact ⟨F, inv_stay hi (by rw [hpc]; rfl) (by rw [hpc]; intro x; rfl) trivial⟩
    · -- gGet
      rename_i n id hpc
      have ho : (s.pc g).op = some (.get n id) := by rw [hpc]; rfl
      split at hs
      all_goals
        simp only [Option.some.injEq, Prod.mk.injEq] at hs
        obtain ⟨rfl, rfl⟩ := hs
        exact ⟨F, inv_looked hi ho (.inl ⟨_, _, rfl⟩)⟩
    · -- lGet
      rename_i ty hpc
      simp only [Option.some.injEq, Prod.mk.injEq] at hs
      obtain ⟨rfl, rfl⟩ := hs
      exact ⟨F, inv_looked hi (by rw [hpc]; rfl) (.inr ⟨_, rfl⟩)⟩
    · cases hs
    · -- cMem
      rename_i n ty tys cmds hpc
      simp only [Option.some.injEq, Prod.mk.injEq] at hs
      obtain ⟨rfl, rfl⟩ := hs
      rw [List.append_nil]
      exact ⟨F, inv_cMem hd hi hpc⟩
    · rename_i n cmds hpc
      simp only [Option.some.injEq, Prod.mk.injEq] at hs
      obtain ⟨rfl, rfl⟩ := hs
      rw [List.append_nil]
      rw [hpc] at hp
      obtain ⟨h1, h2, h3⟩ := hp
      refine ⟨F, inv_stay hi (by rw [hpc]; rfl) (by rw [hpc]; intro x; rfl) ⟨fun id hid hin => ?_, fun id hid hin => ?_,
        .inl (by simp), .inl (by simp), fun c hc => ?_⟩⟩
      · have hin' : (F id).inIds = true := by
          rcases h1 id hid with h | ⟨_, _, h⟩
          · rw [h.2.1] at hin; cases hin
          · rw [h]; rfl
        exact List.mem_append_left _ ((h2 id hid hin').resolve_left (by simp)).1
      · exact List.mem_append_left _ ((h2 id hid hin).resolve_left (by simp)).2
      · rcases List.mem_append.1 hc with hc | hc
        · exact .inl (h3 c hc)
        · simp only [List.mem_cons, List.not_mem_nil, or_false] at hc
          exact .inr hc
    · -- cPipe
      rename_i n c cmds hpc
      simp only [Option.some.injEq, Prod.mk.injEq] at hs
      obtain ⟨rfl, rfl⟩ := hs
      rw [List.append_nil]
      exact inv_cPipe hd hi hpc
    · rename_i n hpc
      simp only [Option.some.injEq, Prod.mk.injEq] at hs
      obtain ⟨rfl, rfl⟩ := hs
      exact ⟨F, inv_cleared hi hpc⟩

theorem legal_prefix {h1 h2 : List Ev} (h : LegalHist own (h1 ++ h2)) : LegalHist own h1 := by
  intro pre g o post he
  exact h pre g o (post ++ h2) (by rw [he]; simp)

theorem unbroken_prefix {h1 h2 : List Ev} (h : Unbroken (h1 ++ h2)) : Unbroken h1 :=
  fun g o hm => h g o (List.mem_append_left _ hm)

/-- The invariant holds in every run that follows the rules. -/
theorem inv_run (hd : ∀ m n, (cfg m).nodeID = (cfg n).nodeID → m = n) {h : List Ev} {s : State} (hr : (sys cfg).Run h s)
    (hl : LegalHist own h) (hu : Unbroken h) : ∃ F, Inv cfg own F h s := by
  induction hr with
  | init => exact ⟨_, inv_init⟩
  | step _ hs ih =>
    obtain ⟨F, hi⟩ := ih (legal_prefix hl) (unbroken_prefix hu)
    exact inv_step hd hi hs hl hu

end Braid.Book
