import Verif.AddressBook.Lemmas

/-
The operations preserve the refinement relation.
-/
namespace Braid.AddressBook
open Spec

variable {cfg : Nat → NodeCfg} {own : String → Nat} {d : List Reg} {dead : List Nat} {W : World}

theorem addr_inj {r s : Reg} (h : r.addr cfg = s.addr cfg) : r.id = s.id ∧ r.ty = s.ty := by
  simp only [Reg.addr, Addr.mk.injEq] at h
  exact ⟨h.1, h.2.1⟩

theorem refines_register (hinj : ∀ m n, (cfg m).nodeID = (cfg n).nodeID → m = n)
    (hR : Refines cfg own d dead W) {n : Nat} {ty id : String} {w : Int} (hn : n ∉ dead)
    (ho : own id = n) :
    Refines cfg own (dirStep d (.register n ty id w)) dead (register cfg none W n ty id w).1 := by
  have hR' := hR
  obtain ⟨nodup, wf, ids, tys, tysNodup, idmap, load, fields, nodes, gone⟩ := hR'
  simp only [dirStep, register]
  by_cases he : id = "" ∨ ty = ""
  · rw [if_pos he, if_pos (by rcases he with h | h <;> simp [h])]
    exact hR
  rw [if_neg he]
  by_cases hex : ∃ r ∈ d, r.id = id
  · rw [if_pos (.inr (.inr hex))]
    obtain ⟨r, hr, hid⟩ := hex
    have hm : W.idmap n id = true := (idmap n hn id).2 ⟨r, hr, hid, by rw [← ho, ← hid, (wf r hr).2.2.1]⟩
    rw [if_pos hm]; exact hR
  have hm : ¬ W.idmap n id = true := fun h => by
    obtain ⟨r, hr, hid, -⟩ := (idmap n hn id).1 h; exact hex ⟨r, hr, hid⟩
  rw [if_neg hm, if_neg (by
    rintro (h | h | h)
    · exact he (.inl h)
    · exact he (.inr h)
    · exact hex h)]
  have hnew : addrOf cfg n ty id ∉ W.redis.tys ty := fun h => by
    obtain ⟨r, hr, -, ha⟩ := (tys ty _).1 h
    have : r.id = id := congrArg Addr.actorId ha
    exact hex ⟨r, hr, this⟩
  have ha0 : (⟨id, ty, n, w⟩ : Reg).addr cfg = addrOf cfg n ty id := rfl
  simp only [registerCmds, Redis.pipe, List.foldl_cons, List.foldl_nil, Redis.run, if_neg hnew]
  refine ⟨?_, ?_, ?_, ?_, ?_, ?_, ?_, ?_, ?_, ?_⟩
  · rw [List.pairwise_append]
    refine ⟨nodup, List.pairwise_singleton _ _, ?_⟩
    intro a ha b hb
    rw [List.mem_singleton] at hb; subst hb
    exact fun e => hex ⟨a, ha, e⟩
  · intro r hr
    rcases List.mem_append.1 hr with h | h
    · exact wf r h
    · rw [List.mem_singleton] at h; subst h
      exact ⟨fun h => he (.inl h), fun h => he (.inr h), ho, hn⟩
  · intro i a
    simp only [set_apply, List.mem_append, List.mem_singleton, or_and_right, exists_or,
      exists_eq_left]
    by_cases hi : i = id
    · subst hi
      simp only [if_true, Option.some.injEq, true_and, ha0]
      constructor
      · exact fun h => .inr h
      · rintro (⟨r, hr, h1, -⟩ | h)
        · exact absurd ⟨r, hr, h1⟩ hex
        · exact h
    · have hi' : ¬ id = i := fun e => hi e.symm
      simp only [if_neg hi, ids, hi', false_and, or_false]
  · intro t a
    simp only [set_apply, List.mem_append, List.mem_singleton, or_and_right, exists_or,
      exists_eq_left, ha0]
    by_cases ht : t = ty
    · subst ht
      simp only [if_true, List.mem_append, List.mem_singleton, tys, true_and, eq_comm]
    · have ht' : ¬ ty = t := fun e => ht e.symm
      simp only [if_neg ht, tys, ht', false_and, or_false]
  · intro t
    simp only [set_apply]
    by_cases ht : t = ty
    · subst ht
      rw [if_pos rfl, List.nodup_append]
      refine ⟨tysNodup t, by simp, ?_⟩
      intro a ha b hb
      rw [List.mem_singleton] at hb
      exact fun e => hnew (by rw [← hb, ← e]; exact ha)
    · rw [if_neg ht]; exact tysNodup t
  · intro m hmd i
    simp only [List.mem_append, List.mem_singleton, or_and_right, exists_or, exists_eq_left]
    by_cases h : m = n ∧ i = id
    · rw [if_pos h]; simp [h.1, h.2]
    · rw [if_neg h, idmap m hmd i]
      constructor
      · exact fun h => .inl h
      · rintro (h' | ⟨h1, h2⟩)
        · exact h'
        · exact absurd ⟨h2.symm, h1.symm⟩ h
  · intro m f
    rw [weightOf_append]
    simp only [set_apply]
    by_cases hmn : m = n
    · subst hmn
      have hl := load m f
      have hl1 := load m (.actor ty)
      have hl2 := load m .total
      simp only [if_true, hget_hincrBy]
      cases f with
      | total =>
        simp only [if_true, Option.getD_some, reduceCtorEq, if_false]
        rw [hl2]; simp [counts]
      | actor t =>
        by_cases ht : t = ty
        · subst ht
          simp only [if_true, Option.getD_some, reduceCtorEq, if_false]
          rw [hl1]; simp [counts]
        · have ht' : ¬ ty = t := fun e => ht e.symm
          simp only [reduceCtorEq, if_false, Field.actor.injEq, if_neg ht]
          rw [hl]; simp [counts, ht']
    · have hne : ¬ (cfg m).nodeID = (cfg n).nodeID := fun e => hmn (hinj _ _ e)
      have hnm : ¬ n = m := fun e => hmn e.symm
      simp only [if_neg hne]
      rw [load m f]; simp [counts, hnm]
  · intro r hr
    simp only [set_apply]
    by_cases hne : (cfg r.node).nodeID = (cfg n).nodeID
    · simp only [if_pos hne, if_true, hget_hincrBy]
      rcases List.mem_append.1 hr with h | h
      · have := fields r h
        rw [hne] at this
        by_cases ht : r.ty = ty
        · simp [ht]
        · simp [ht, this.1]
      · rw [List.mem_singleton] at h; subst h; simp
    · simp only [if_neg hne]
      rcases List.mem_append.1 hr with h | h
      · exact fields r h
      · rw [List.mem_singleton] at h; subst h; exact absurd rfl hne
  · intro r hr
    simp only [set_apply]
    by_cases hne : (cfg r.node).nodeID = (cfg n).nodeID
    · rw [if_pos hne, hinj _ _ hne]
    · rw [if_neg hne]
      rcases List.mem_append.1 hr with h | h
      · exact nodes r h
      · rw [List.mem_singleton] at h; subst h; exact absurd rfl hne
  · intro m hmd
    have hne : ¬ (cfg m).nodeID = (cfg n).nodeID := fun e => hn (hinj _ _ e ▸ hmd)
    simp only [set_apply, if_neg hne]
    exact gone m hmd

theorem refines_unregister (hinj : ∀ m n, (cfg m).nodeID = (cfg n).nodeID → m = n)
    (hR : Refines cfg own d dead W) {n : Nat} {id : String} {w : Int}
    (ho : own id = n) (hw : ∀ r ∈ d, r.id = id → r.weight = w) :
    Refines cfg own (dirStep d (.unregister n id w)) dead (unregister cfg none W n id w).1 := by
  have hR' := hR
  obtain ⟨nodup, wf, ids, tys, tysNodup, idmap, load, fields, nodes, gone⟩ := hR'
  simp only [dirStep, unregister]
  by_cases he : id = ""
  · rw [if_pos he, not_mem_remove]
    · exact hR
    · rintro ⟨r, hr, h⟩; exact (wf r hr).1 (h.trans he)
  rw [if_neg he]
  cases hget' : W.redis.ids id with
  | none =>
    rw [not_mem_remove]
    · exact hR
    · rintro ⟨r, hr, h⟩
      have := (ids id (r.addr cfg)).2 ⟨r, hr, h, rfl⟩
      rw [hget'] at this; cases this
  | some a =>
    obtain ⟨r, hr, hid, rfl⟩ := (ids id a).1 hget'
    subst hid
    have hrn : r.node = n := by rw [← ho, (wf r hr).2.2.1]
    have hwt := hw r hr rfl
    have hne : ∀ s ∈ d, s.id = r.id → s = r := fun s hs h => reg_unique nodup hs hr h
    simp only [unregisterCmds, Redis.pipe, List.foldl_cons, List.foldl_nil, Redis.run]
    have hty : (r.addr cfg).actorTy = r.ty := rfl
    simp only [hty]
    have hmem : ∀ s, s ∈ d.filter (fun x => decide (x.id ≠ r.id)) ↔ s ∈ d ∧ s.id ≠ r.id := by
      intro s; simp [List.mem_filter]
    refine ⟨nodup.filter _, ?_, ?_, ?_, ?_, ?_, ?_, ?_, ?_, ?_⟩
    · intro s hs; exact wf s ((hmem s).1 hs).1
    · intro i a
      simp only [set_apply, hmem]
      by_cases hi : i = r.id
      · subst hi
        simp only [if_true, reduceCtorEq, false_iff]
        rintro ⟨s, ⟨-, h1⟩, h2, -⟩; exact h1 h2
      · simp only [if_neg hi, ids]
        constructor
        · rintro ⟨s, hs, h1, h2⟩; exact ⟨s, ⟨hs, by rw [h1]; exact hi⟩, h1, h2⟩
        · rintro ⟨s, ⟨hs, -⟩, h1, h2⟩; exact ⟨s, hs, h1, h2⟩
    · intro t a
      simp only [set_apply, hmem]
      by_cases ht : t = r.ty
      · subst ht
        simp only [if_true, List.mem_filter, tys, ne_eq, decide_not, Bool.not_eq_true',
          decide_eq_false_iff_not]
        constructor
        · rintro ⟨⟨s, hs, h1, h2⟩, h3⟩
          exact ⟨s, ⟨hs, fun e => h3 (by rw [← h2, hne s hs e])⟩, h1, h2⟩
        · rintro ⟨s, ⟨hs, h0⟩, h1, h2⟩
          exact ⟨⟨s, hs, h1, h2⟩, fun e => h0 (addr_inj (h2.trans e)).1⟩
      · simp only [if_neg ht, tys]
        constructor
        · rintro ⟨s, hs, h1, h2⟩
          exact ⟨s, ⟨hs, fun e => ht (by rw [← h1, hne s hs e])⟩, h1, h2⟩
        · rintro ⟨s, ⟨hs, -⟩, h1, h2⟩; exact ⟨s, hs, h1, h2⟩
    · intro t
      simp only [set_apply]
      by_cases ht : t = r.ty
      · rw [if_pos ht]; exact (tysNodup _).filter _
      · rw [if_neg ht]; exact tysNodup t
    · intro m hmd i
      simp only [hmem]
      by_cases h : m = n ∧ i = r.id
      · rw [if_pos h]
        simp only [Bool.false_eq_true, false_iff]
        rintro ⟨s, ⟨-, h1⟩, h2, -⟩; exact h1 (h2.trans h.2)
      · rw [if_neg h, idmap m hmd i]
        constructor
        · rintro ⟨s, hs, h1, h2⟩
          refine ⟨s, ⟨hs, fun e => h ⟨?_, by rw [← h1, e]⟩⟩, h1, h2⟩
          rw [← h2, hne s hs e, hrn]
        · rintro ⟨s, ⟨hs, -⟩, h1, h2⟩; exact ⟨s, hs, h1, h2⟩
    · intro m f
      rw [weightOf_remove nodup hr]
      simp only [set_apply]
      by_cases hmn : m = n
      · subst hmn
        have hl := load m f
        have hl1 := load m (.actor r.ty)
        have hl2 := load m .total
        simp only [if_true, hget_hincrBy]
        cases f with
        | total =>
          simp only [if_true, Option.getD_some, reduceCtorEq, if_false]
          rw [hl2]; simp [counts, hrn, hwt]; omega
        | actor t =>
          by_cases ht : t = r.ty
          · subst ht
            simp only [if_true, Option.getD_some, reduceCtorEq, if_false]
            rw [hl1]; simp [counts, hrn, hwt]; omega
          · have ht' : ¬ r.ty = t := fun e => ht e.symm
            simp only [reduceCtorEq, if_false, Field.actor.injEq, if_neg ht]
            rw [hl]; simp [counts, ht']
      · have hnid : ¬ (cfg m).nodeID = (cfg n).nodeID := fun e => hmn (hinj _ _ e)
        have hnm : ¬ r.node = m := fun e => hmn (by rw [← e, hrn])
        simp only [if_neg hnid]
        rw [load m f]; simp [counts, hnm]
    · intro s hs
      have := fields s ((hmem s).1 hs).1
      simp only [set_apply]
      by_cases hnid : (cfg s.node).nodeID = (cfg n).nodeID
      · rw [hnid] at this
        simp only [if_pos hnid, if_true, hget_hincrBy]
        by_cases ht : s.ty = r.ty
        · simp [ht]
        · simp [ht, this.1]
      · simp only [if_neg hnid]; exact this
    · intro s hs; exact nodes s ((hmem s).1 hs).1
    · intro m hmd
      have hnid : ¬ (cfg m).nodeID = (cfg n).nodeID := fun e =>
        (wf r hr).2.2.2 (by rw [hrn, ← hinj _ _ e]; exact hmd)
      simp only [set_apply, if_neg hnid]
      exact gone m hmd

theorem mem_clearPairs_iff (hinj : ∀ m n, (cfg m).nodeID = (cfg n).nodeID → m = n)
    (hR : Refines cfg own d dead W) {n : Nat} {ty : String} {a : Addr} :
    (ty, a) ∈ clearPairs W.redis (cfg n).nodeID ↔
      ∃ r ∈ d, r.ty = ty ∧ r.addr cfg = a ∧ r.node = n := by
  rw [mem_clearPairs, hR.tys]
  constructor
  · rintro ⟨-, ⟨r, hr, h1, rfl⟩, h2⟩
    exact ⟨r, hr, h1, rfl, hinj _ _ h2⟩
  · rintro ⟨r, hr, rfl, rfl, rfl⟩
    exact ⟨(hR.fields r hr).1, ⟨r, hr, rfl, rfl⟩, rfl⟩

theorem refines_clear (hinj : ∀ m n, (cfg m).nodeID = (cfg n).nodeID → m = n)
    (hR : Refines cfg own d dead W) (n : Nat) :
    Refines cfg own (dirStep d (.clear n)) (n :: dead) (clear cfg W n) := by
  have hp := @mem_clearPairs_iff cfg own d dead W hinj hR n
  obtain ⟨h1, h2, h3, h4⟩ := clear_redis cfg W n
  have hidm : (clear cfg W n).idmap = W.idmap := rfl
  obtain ⟨nodup, wf, ids, tys, tysNodup, idmap, load, fields, nodes, gone⟩ := hR
  have hmem : ∀ s, s ∈ dirStep d (.clear n) ↔ s ∈ d ∧ s.node ≠ n := by
    intro s; simp [dirStep, List.mem_filter]
  refine ⟨nodup.filter _, ?_, ?_, ?_, ?_, ?_, ?_, ?_, ?_, ?_⟩
  · intro r hr
    obtain ⟨hr, hn⟩ := (hmem r).1 hr
    obtain ⟨a, b, c, e⟩ := wf r hr
    exact ⟨a, b, c, by simpa using ⟨hn, e⟩⟩
  · intro i a
    rw [h1]
    simp only [hmem]
    by_cases hx : ∃ p ∈ clearPairs W.redis (cfg n).nodeID, p.2.actorId = i
    · rw [if_pos hx]
      obtain ⟨⟨t, b⟩, hb, hi⟩ := hx
      obtain ⟨r, hr, -, rfl, hrn⟩ := hp.1 hb
      simp only [reduceCtorEq, false_iff]
      rintro ⟨s, ⟨hs, hsn⟩, hsi, -⟩
      have : r.id = s.id := by rw [hsi]; exact hi
      rw [reg_unique nodup hr hs this] at hrn
      exact hsn hrn
    · rw [if_neg hx, ids]
      constructor
      · rintro ⟨r, hr, hi, ha⟩
        exact ⟨r, ⟨hr, fun hn => hx ⟨(r.ty, a), hp.2 ⟨r, hr, rfl, ha, hn⟩, by rw [← ha, ← hi]; rfl⟩⟩, hi, ha⟩
      · rintro ⟨r, ⟨hr, -⟩, hi, ha⟩; exact ⟨r, hr, hi, ha⟩
  · intro t a
    rw [h2]
    simp only [hmem, List.mem_filter, decide_eq_true_eq, hp, tys]
    constructor
    · rintro ⟨⟨r, hr, ht, ha⟩, hno⟩
      exact ⟨r, ⟨hr, fun hn => hno ⟨r, hr, ht, ha, hn⟩⟩, ht, ha⟩
    · rintro ⟨r, ⟨hr, hn⟩, ht, ha⟩
      refine ⟨⟨r, hr, ht, ha⟩, ?_⟩
      rintro ⟨s, hs, -, hsa, hsn⟩
      have := (addr_inj (hsa.trans ha.symm)).1
      rw [reg_unique nodup hs hr this] at hsn
      exact hn hsn
  · intro t; rw [h2]; exact (tysNodup t).filter _
  · intro m hm i
    rw [hidm]
    simp only [List.mem_cons, not_or] at hm
    rw [idmap m hm.2 i]
    simp only [hmem]
    constructor
    · rintro ⟨r, hr, hi, rfl⟩; exact ⟨r, ⟨hr, hm.1⟩, hi, rfl⟩
    · rintro ⟨r, ⟨hr, -⟩, hi, h⟩; exact ⟨r, hr, hi, h⟩
  · intro m f
    rw [h4, set_apply]
    have hfil : ∀ p : Reg → Bool, weightOf (dirStep d (.clear n)) p =
        weightOf d fun r => decide (r.node ≠ n) && p r := by
      intro p; simp [weightOf, dirStep, List.filter_filter, Bool.and_comm]
    rw [hfil]
    by_cases hmn : m = n
    · subst hmn
      have : (d.filter fun r => decide (r.node ≠ m) && counts m f r) = [] := by
        rw [List.filter_eq_nil_iff]
        intro r _
        by_cases hx : r.node = m <;> simp [counts, hx]
      rw [if_pos rfl, weightOf, this]; rfl
    · have hne : ¬ (cfg m).nodeID = (cfg n).nodeID := fun e => hmn (hinj _ _ e)
      rw [if_neg hne, load m f]
      simp only [weightOf]
      congr 2
      apply List.filter_congr
      intro r _
      by_cases hx : r.node = m
      · simp [counts, hx, hmn]
      · simp [counts, hx]
  · intro r hr
    obtain ⟨hr, hn⟩ := (hmem r).1 hr
    have hne : ¬ (cfg r.node).nodeID = (cfg n).nodeID := fun e => hn (hinj _ _ e)
    rw [h4, set_apply, if_neg hne]; exact fields r hr
  · intro r hr
    obtain ⟨hr, hn⟩ := (hmem r).1 hr
    have hne : ¬ (cfg r.node).nodeID = (cfg n).nodeID := fun e => hn (hinj _ _ e)
    rw [h3, set_apply, if_neg hne]; exact nodes r hr
  · intro m hm
    rw [h3, h4, set_apply, set_apply]
    by_cases hne : (cfg m).nodeID = (cfg n).nodeID
    · rw [if_pos hne, if_pos hne]; exact ⟨rfl, rfl⟩
    · rw [if_neg hne, if_neg hne]
      rcases List.mem_cons.1 hm with h | h
      · subst h; exact absurd rfl hne
      · exact gone m h

theorem stopped_append (a b : List Op) : stopped (a ++ b) = stopped a ++ stopped b := by
  induction a with
  | nil => rfl
  | cons x a ih => cases x <;> simp [stopped, ih]

theorem legalOps_snoc {ops : List Op} {op : Op} (h : LegalOps own (ops ++ [op])) :
    LegalOps own ops ∧ Legal own ops op := by
  constructor
  · intro pre o post e
    exact h pre o (post ++ [op]) (by rw [e]; simp)
  · exact h ops op [] rfl

theorem legalOps_nil : LegalOps own [] := by
  intro pre op post h; simp at h

theorem legalOps_concat {ops : List Op} {op : Op} (h : LegalOps own ops) (ho : Legal own ops op) :
    LegalOps own (ops ++ [op]) := by
  intro pre o post e
  rcases List.eq_nil_or_concat post with rfl | ⟨post', x, rfl⟩
  · obtain ⟨h1, h2⟩ := List.append_inj' e rfl
    simp only [List.cons.injEq, and_true] at h2
    subst h1; subst h2; exact ho
  · rw [List.concat_eq_append] at e
    have e' : ops ++ [op] = (pre ++ o :: post') ++ [x] := by simp [e]
    obtain ⟨h1, -⟩ := List.append_inj' e' rfl
    exact h pre o post' h1

/-- The stopped nodes matter only as a set. -/
theorem Refines.congr_dead {dead' : List Nat} (hR : Refines cfg own d dead W)
    (h : ∀ n, n ∈ dead' ↔ n ∈ dead) : Refines cfg own d dead' W where
  nodup := hR.nodup
  wf r hr := by have := hR.wf r hr; rw [h]; exact this
  ids := hR.ids
  tys := hR.tys
  tysNodup := hR.tysNodup
  idmap n hn := hR.idmap n (by rwa [h] at hn)
  load := hR.load
  fields := hR.fields
  nodes := hR.nodes
  gone n hn := hR.gone n ((h n).1 hn)

theorem refines_run (hinj : ∀ m n, (cfg m).nodeID = (cfg n).nodeID → m = n) (ops : List Op)
    (hl : LegalOps own ops) : Refines cfg own (dir ops) (stopped ops) (runOps cfg ops) := by
  obtain ⟨n, hn⟩ : ∃ n, ops.length = n := ⟨_, rfl⟩
  induction n generalizing ops with
  | zero => rw [List.length_eq_zero_iff.1 hn]; exact refines_init cfg own
  | succ n ih =>
    rcases List.eq_nil_or_concat ops with h | ⟨ops', op, rfl⟩
    · rw [h]; exact refines_init cfg own
    · rw [List.concat_eq_append] at *
      obtain ⟨hl', hop⟩ := legalOps_snoc hl
      have hR := ih ops' hl' (by simpa using hn)
      have e1 : dir (ops' ++ [op]) = dirStep (dir ops') op := by simp [dir, List.foldl_append]
      have e2 : runOps cfg (ops' ++ [op]) = apply cfg (runOps cfg ops') op := by
        simp [runOps, List.foldl_append]
      rw [e1, e2, stopped_append]
      cases op with
      | register m ty id w =>
        simp only [stopped, List.append_nil]
        exact refines_register hinj hR hop.1 hop.2
      | unregister m id w =>
        simp only [stopped, List.append_nil]
        exact refines_unregister hinj hR hop.2.1 hop.2.2
      | clear m =>
        exact (refines_clear hinj hR m).congr_dead (by simp [stopped, or_comm])

end Braid.AddressBook
