import Verif.Live.Keep

/-
The record of an actor stays as long as the actor is in the map of its node.
-/
namespace Braid.Live
open AddressBook Spec

variable {cfg : Nat → NodeCfg} {factory : Nat → String → Option Int} {n : Nat} {id ty : String}

/-- The goroutine has found that the actor is not in the map. -/
def missPc (n : Nat) (id : String) : Register.Pc → Prop
  | .rUnique m b => m = n ∧ b.id = id
  | .rCount m b => m = n ∧ b.id = id
  | .rBook m b => m = n ∧ b.id = id
  | .rPipe m b _ => m = n ∧ b.id = id
  | .rIdmap m b => m = n ∧ b.id = id
  | .rBuild m b => m = n ∧ b.id = id
  | .rInsert m b _ => m = n ∧ b.id = id
  | .uFactory m x _ => m = n ∧ x = id
  | .uGet _ m x _ => m = n ∧ x = id
  | .uPipe _ m _ x _ _ => m = n ∧ x = id
  | .uIdmap _ m x => m = n ∧ x = id
  | _ => False

/-- The same for a call. -/
def missC (n : Nat) (id ty : String) : CPc → Prop
  | .at_ .book m t _ => m = n ∧ t = id
  | .at_ .redis m t _ => m = n ∧ t = id
  | .at_ .pick2 m _ u => m = n ∧ u = ty
  | .at_ (.resolve a) m _ _ => m = n ∧ a.actorId = id
  | _ => False

/-- The record is complete, with the `IDMap`. -/
def Full (cfg : Nat → NodeCfg) (n : Nat) (id ty : String) (W : World) : Prop :=
  Found cfg n id ty W ∧ W.idmap n id = true

/-- How far a registration has come. -/
def progPc (cfg : Nat → NodeCfg) (n : Nat) (id ty : String) (W : World) : Register.Pc → Prop
  | .rPipe m b k => m = n → b.id = id → (1 ≤ k → W.redis.ids id = some (record cfg n id ty)) ∧
      (2 ≤ k → record cfg n id ty ∈ W.redis.tys ty)
  | .rIdmap m b => m = n → b.id = id → Found cfg n id ty W
  | .rBuild m b => m = n → b.id = id → Full cfg n id ty W
  | .rInsert m b _ => m = n → b.id = id → Full cfg n id ty W
  | _ => True

/-- A call of the actor on its node. -/
def Asks (id ty t u : String) : Prop := t = id ∨ (t = "?" ∨ t = "~") ∧ u = ty

structure Keep (cfg : Nat → NodeCfg) (n : Nat) (id ty : String) (s : State) : Prop where
  idA : ∀ a, s.r.W.redis.ids id = some a → a = record cfg n id ty
  tyA : ∀ t a, a ∈ s.r.W.redis.tys t → a.actorId = id → a = record cfg n id ty
  idmap : ∀ m, m ≠ n → s.r.W.idmap m id = false
  mapM : ∀ m, m ≠ n → Register.get (s.r.map m) id = none
  mapI : ∀ i, Register.get (s.r.map n) id = some i → (s.r.inst i).ty = ty ∧ i < s.r.next
  addr : ∀ g m t u a, s.c g = .at_ (.resolve a) m t u → a.actorId = id →
    (a.ip = (cfg m).ip → a.port = (cfg m).port → m = n) ∧ Asks id ty t u
  addr2 : ∀ g m t u a, s.c g = .at_ (.check a) m t u → a.actorId = id →
    (a.ip = (cfg m).ip → a.port = (cfg m).port → m = n) ∧ Asks id ty t u
  cleanOp : ∀ g m w, (s.r.pc g).op = some (.clean m id w) → m = n ∧
    ∀ t u, s.c g = .at_ .clean m t u → Asks id ty t u
  lackR : ∀ g, missPc n id (s.r.pc g) → Register.get (s.r.map n) id = none
  lackC : ∀ g, missC n id ty (s.c g) → Register.get (s.r.map n) id = none
  full : ∀ i, Register.get (s.r.map n) id = some i → Full cfg n id ty s.r.W
  prog : ∀ g, progPc cfg n id ty s.r.W (s.r.pc g)

/-- What the history says about the operations in progress. -/
structure Side (n : Nat) (id ty : String) (s : State) : Prop where
  link : Link s
  shape : Shape s
  own : ∀ g m b, (s.r.pc g).op = some (.reg m b) → b.id = id → m = n ∧ b.ty = ty
  unr : ∀ g m t, (s.r.pc g).op = some (.unreg m id t) → m = n
  ex : Ex n id ty s

theorem cur_reg {s : State} (hl : Link s) {g m : Nat} {b : Register.Builder}
    (h : (s.r.pc g).op = some (.reg m b)) : cur s g = some (.reg m b) := by
  unfold cur
  split
  · next p _ _ _ hc =>
    by_cases hp : p = .clean
    · subst hp
      obtain ⟨x, w, hx⟩ := hl.clean g _ _ _ hc
      rw [hx] at h; cases h
    · rw [hl.idle g p _ _ _ hc hp] at h; cases h
  · rw [h]

theorem cur_unreg {s : State} (hl : Link s) {g m : Nat} {x t : String}
    (h : (s.r.pc g).op = some (.unreg m x t)) : cur s g = some (.unreg m x t) := by
  unfold cur
  split
  · next p _ _ _ hc =>
    by_cases hp : p = .clean
    · subst hp
      obtain ⟨x, w, hx⟩ := hl.clean g _ _ _ hc
      rw [hx] at h; cases h
    · rw [hl.idle g p _ _ _ hc hp] at h; cases h
  · rw [h]

/-- A goroutine that has found that the actor is missing is in an operation that concerns it. -/
theorem miss_touch {s : State} (hk : Keep cfg n id ty s) (hs : Side n id ty s) {g : Nat}
    (h : missPc n id (s.r.pc g) ∨ missC n id ty (s.c g)) :
    ∃ o, cur s g = some o ∧ (Changes n id o ∨ Meets n id ty o) := by
  have uop : ∀ o m x, (s.r.pc g).op = some o → ((∃ w, o = .clean m x w) ∨ ∃ t, o = .unreg m x t) → m = n → x = id →
      ∃ o, cur s g = some o ∧ (Changes n id o ∨ Meets n id ty o) := by
    rintro o m x ho (⟨w, rfl⟩ | ⟨t, rfl⟩) rfl rfl
    · obtain ⟨t, u, hc⟩ := hs.link.back g _ _ _ ho
      have := (hk.cleanOp g _ _ ho).2 t u hc
      exact ⟨.call _ t u, by simp [cur, hc], .inr ⟨rfl, this⟩⟩
    · exact ⟨_, cur_unreg hs.link ho, .inl ⟨rfl, rfl⟩⟩
  rcases h with h | h
  · cases hp : s.r.pc g <;> rw [hp] at h <;> simp only [missPc] at h
    case uGet o m x w =>
      exact uop o m x (by rw [hp]; rfl) ((hs.shape.uget g _ _ _ _ hp).imp (fun h => ⟨w, h⟩) _root_.id) h.1 h.2
    case uPipe o m a x w k =>
      exact uop o m x (by rw [hp]; rfl) ((hs.shape.upipe2 g _ _ _ _ _ _ hp).imp (fun h => ⟨w, h⟩) _root_.id) h.1 h.2
    case uIdmap o m x =>
      exact uop o m x (by rw [hp]; rfl) (hs.shape.uidmap g _ _ _ hp) h.1 h.2
    case uFactory m x t =>
      exact ⟨_, cur_unreg hs.link (g := g) (by rw [hp]; rfl), .inl h⟩
    all_goals exact ⟨_, cur_reg hs.link (g := g) (by rw [hp]; rfl), .inl h⟩
  · cases hc : s.c g with
    | idle => rw [hc] at h; exact h.elim
    | at_ p m t u =>
      refine ⟨.call m t u, by simp [cur, hc], .inr ?_⟩
      rw [hc] at h
      cases p <;> simp only [missC] at h
      case book => exact ⟨h.1, .inl h.2⟩
      case redis => exact ⟨h.1, .inl h.2⟩
      case pick2 => exact ⟨h.1, .inr ⟨.inr (hs.shape.tgt4 g _ _ _ hc), h.2⟩⟩
      case resolve a => exact ⟨h.1, (hk.addr g _ _ _ _ hc h.2).2⟩

theorem reg_inst {r r' : Register.State} {g : Nat} {a : Register.Act} {e : List Register.Ev}
    (ha : a = .go g ∨ a = .fail g) (hs : Register.step cfg factory r a = some (r', e)) :
    r.next ≤ r'.next ∧ ∀ i, i < r.next → r'.inst i = r.inst i := by
  rcases ha with rfl | rfl
  all_goals
    rg_cases hs
    all_goals
      refine ⟨by simp, fun i hi => ?_⟩
      first
        | rfl
        | (dsimp only
           rw [upd_of_ne]
           omega)

/-- Nobody else is about to put the actor into the map. -/
theorem others {s : State} (hk : Keep cfg n id ty s) (hs : Side n id ty s) {g g' : Nat} (hne : g' ≠ g)
    {b : Register.Builder} (hop : (s.r.pc g).op = some (.reg n b)) (hb : b.id = id)
    (h : missPc n id (s.r.pc g') ∨ missC n id ty (s.c g')) : False := by
  obtain ⟨o, ho, ht⟩ := miss_touch hk hs h
  have := hs.ex g g' _ o (fun h => hne h.symm) (cur_reg hs.link hop) ho ⟨rfl, hb⟩
  rcases ht with ht | ht
  · exact this.1 ht
  · exact this.2 ht

/-- Who removes the record of the actor has found that it is missing. -/
theorem remover {s : State} (hk : Keep cfg n id ty s) (hs : Side n id ty s) {g m : Nat} {o : Register.Op}
    (ho : (s.r.pc g).op = some o) (hx : (∃ w, o = .clean m id w) ∨ ∃ t, o = .unreg m id t) : m = n := by
  rcases hx with ⟨w, rfl⟩ | ⟨t, rfl⟩
  · exact (hk.cleanOp g m w ho).1
  · exact hs.unr g m t ho

theorem keep_reg {s : State} {r : Register.State} {g : Nat} {a : Register.Act} {e : List Register.Ev}
    (hk : Keep cfg n id ty s) (hs : Side n id ty s) (ha : a = .go g ∨ a = .fail g)
    (hst : Register.step cfg factory s.r a = some (r, e)) :
    Keep cfg n id ty ⟨r, if r.pc g = .idle then upd s.c g .idle else s.c⟩ := by
  have hw := writes ha hst
  have hm := marks ha hst
  have hp := puts ha hst
  obtain ⟨hpc, hop⟩ := reg_op ha hst
  obtain ⟨hnx, hin⟩ := reg_inst ha hst
  -- the operation that the step belongs to
  have upipe : ∀ {o m a w k}, s.r.pc g = .uPipe o m a id w k → missPc n id (s.r.pc g) := by
    intro o m a w k h
    have := remover hk hs (g := g) (m := m) (o := o) (by rw [h]; rfl)
      ((hs.shape.upipe2 g _ _ _ _ _ _ h).imp (fun h => ⟨w, h⟩) _root_.id)
    rw [h]; exact ⟨this, rfl⟩
  -- a goroutine that has found the actor missing is right also afterwards
  have lack : ∀ x, x ≠ g → (missPc n id (s.r.pc x) ∨ missC n id ty (s.c x)) →
      Register.get (r.map n) id = none := by
    intro x hx h
    have h0 : Register.get (s.r.map n) id = none := h.elim (hk.lackR x) (hk.lackC x)
    cases hp with
    | no h1 => rw [h1]; exact h0
    | put m b i h1 _ h2 =>
      rw [h2]
      split
      · next hc =>
        exact (others hk hs hx (b := b) (by rw [h1, ← hc.1]; rfl) hc.2.symm h).elim
      · exact h0
    | del m y t h1 h2 =>
      rw [h2]
      split
      · rfl
      · exact h0
  -- the record stays while the actor is in the map
  have keep1 : (missPc n id (s.r.pc g) → False) → s.r.W.redis.ids id = some (record cfg n id ty) →
      r.W.redis.ids id = some (record cfg n id ty) := by
    intro hno f1
    cases hw with
    | no h1 _ => rw [h1]; exact f1
    | hset m b h1 h2 _ =>
      rw [h2]; unfold AddressBook.set
      split
      · next hx =>
        obtain ⟨rfl, ht⟩ := hs.own g m b (by rw [h1]; rfl) hx.symm
        rw [ht, ← hx]; rfl
      · exact f1
    | sadd _ _ _ h1 _ => rw [h1]; exact f1
    | hdel o m a x w h1 h2 _ =>
      rw [h2]; unfold AddressBook.set
      split
      · next hx => subst hx; exact (hno (upipe h1)).elim
      · exact f1
    | srem _ _ _ _ _ _ h1 _ => rw [h1]; exact f1
  have keep2 : (missPc n id (s.r.pc g) → False) → record cfg n id ty ∈ s.r.W.redis.tys ty →
      record cfg n id ty ∈ r.W.redis.tys ty := by
    intro hno f2
    cases hw with
    | no _ h1 => rw [h1]; exact f2
    | hset _ _ _ _ h1 => rw [h1]; exact f2
    | sadd _ _ _ _ h1 => exact (h1 _ _).2 (.inl f2)
    | hdel _ _ _ _ _ _ _ h1 => rw [h1]; exact f2
    | srem o m a x w h1 _ h2 =>
      refine (h2 _ _).2 ⟨f2, fun hc => ?_⟩
      have := hs.shape.upipe g _ _ _ _ _ _ h1
      rw [← hc.2] at this
      have hx : id = x := this
      subst hx
      exact hno (upipe h1)
  have keep3 : (missPc n id (s.r.pc g) → False) → s.r.W.idmap n id = true → r.W.idmap n id = true := by
    intro hno f3
    cases hm with
    | no h1 => rw [h1]; exact f3
    | yes m b _ h1 =>
      rw [h1]; split
      · rfl
      · exact f3
    | del o m y h1 h2 =>
      rw [h2]; split
      · next hc =>
        have := hno (by rw [h1]; exact ⟨hc.1.symm, hc.2.symm⟩)
        exact this.elim
      · exact f3
  have keepW : (missPc n id (s.r.pc g) → False) → Full cfg n id ty s.r.W → Full cfg n id ty r.W :=
    fun hno ⟨⟨f1, f2⟩, f3⟩ => ⟨⟨keep1 hno f1, keep2 hno f2⟩, keep3 hno f3⟩
  refine ⟨?_, ?_, ?_, ?_, ?_, fun x m t u a h => hk.addr x m t u a (c_reg h),
    fun x m t u a h => hk.addr2 x m t u a (c_reg h), ?_, ?_, ?_, ?_, ?_⟩
  · -- idA
    intro a' h
    dsimp only at h
    cases hw with
    | no h1 _ => exact hk.idA a' (by rw [← h1]; exact h)
    | hset m b h1 h2 _ =>
      rw [h2] at h; unfold AddressBook.set at h
      split at h
      · next hx =>
        cases h
        obtain ⟨rfl, ht⟩ := hs.own g m b (by rw [h1]; rfl) hx.symm
        rw [ht, ← hx]; rfl
      · exact hk.idA a' h
    | sadd _ _ _ h1 _ => exact hk.idA a' (by rw [← h1]; exact h)
    | hdel o m a x w h1 h2 _ =>
      rw [h2] at h; unfold AddressBook.set at h
      split at h
      · cases h
      · exact hk.idA a' h
    | srem _ _ _ _ _ _ h1 _ => exact hk.idA a' (by rw [← h1]; exact h)
  · -- tyA
    intro t a' h hid
    dsimp only at h
    cases hw with
    | no _ h1 => exact hk.tyA t a' (by rw [← h1]; exact h) hid
    | hset _ _ _ _ h1 => exact hk.tyA t a' (by rw [← h1]; exact h) hid
    | sadd m b h0 _ h1 =>
      rcases (h1 _ _).1 h with h | ⟨-, rfl⟩
      · exact hk.tyA t a' h hid
      · have hx : b.id = id := hid
        obtain ⟨rfl, ht⟩ := hs.own g m b (by rw [h0]; rfl) hx
        rw [ht, hx]; rfl
    | hdel _ _ _ _ _ _ _ h1 => exact hk.tyA t a' (by rw [← h1]; exact h) hid
    | srem _ _ _ _ _ _ _ h1 => exact hk.tyA t a' ((h1 _ _).1 h).1 hid
  · -- idmap
    intro m hne
    dsimp only
    cases hm with
    | no h1 => rw [h1]; exact hk.idmap m hne
    | yes m' b h1 h2 =>
      rw [h2]; split
      · next hc => exact absurd (hc.1.trans (hs.own g m' b (by rw [h1]; rfl) hc.2.symm).1) hne
      · exact hk.idmap m hne
    | del o m' y h1 h2 =>
      rw [h2]; split
      · rfl
      · exact hk.idmap m hne
  · -- mapM
    intro m hne
    dsimp only
    cases hp with
    | no h1 => rw [h1]; exact hk.mapM m hne
    | put m' b i h1 _ h2 =>
      rw [h2]; split
      · next hc => exact absurd (hc.1.trans (hs.own g m' b (by rw [h1]; rfl) hc.2.symm).1) hne
      · exact hk.mapM m hne
    | del m' y t h1 h2 =>
      rw [h2]; split
      · rfl
      · exact hk.mapM m hne
  · -- mapI
    intro i h
    dsimp only at h ⊢
    have old : Register.get (s.r.map n) id = some i → (r.inst i).ty = ty ∧ i < r.next := by
      intro h
      obtain ⟨h1, h2⟩ := hk.mapI i h
      rw [hin i h2]
      exact ⟨h1, Nat.lt_of_lt_of_le h2 hnx⟩
    cases hp with
    | no h1 => rw [h1] at h; exact old h
    | put m' b i' h1 _ h2 =>
      rw [h2] at h; split at h
      · next hc =>
        cases h
        obtain ⟨h3, h4⟩ := hs.shape.ins g m' b _ h1
        rw [hin _ h4, h3]
        exact ⟨(hs.own g m' b (by rw [h1]; rfl) hc.2.symm).2, Nat.lt_of_lt_of_le h4 hnx⟩
      · exact old h
    | del m' y t h1 h2 =>
      rw [h2] at h; split at h
      · cases h
      · exact old h
  · -- cleanOp
    intro x m w h
    replace h : (r.pc x).op = some (.clean m id w) := h
    by_cases hx : x = g
    · subst hx
      rcases hop with ⟨h1, h2, -⟩ | ⟨h1, -, -⟩
      · rw [h1] at h
        obtain ⟨h3, h4⟩ := hk.cleanOp x m w h
        exact ⟨h3, fun t u hc => h4 t u (c_reg hc)⟩
      · rw [h1] at h; cases h
    · rw [hpc x hx] at h
      obtain ⟨h3, h4⟩ := hk.cleanOp x m w h
      exact ⟨h3, fun t u hc => h4 t u (c_reg hc)⟩
  · -- lackR
    intro x h
    dsimp only at h ⊢
    by_cases hx : x = g
    · subst hx
      have h0 := hk.lackR x
      clear lack keepW keep1 keep2 keep3 hw hm hp hop
      rcases ha with rfl | rfl
      · rg_cases hst
        all_goals (simp only [upd_same, missPc] at h)
        all_goals (try (exact h.elim))
        all_goals grind [missPc, upd_apply]
      · rg_cases hst
        all_goals (simp only [upd_same, missPc] at h)
    · rw [hpc x hx] at h
      exact lack x hx (.inl h)
  · -- lackC
    intro x h
    dsimp only at h ⊢
    have h' : missC n id ty (s.c x) := by
      split at h
      · rw [upd_apply] at h
        split at h
        · exact h.elim
        · exact h
      · exact h
    by_cases hx : x = g
    · subst hx
      exfalso
      cases hc : s.c x with
      | idle => rw [hc] at h'; exact h'
      | at_ p m t u =>
        by_cases hcl : p = .clean
        · subst hcl; rw [hc] at h'; exact h'
        · have := hs.link.idle x p m t u hc hcl
          rcases hop with ⟨h1, h2, -⟩ | ⟨-, h1, -⟩
          · rw [this] at h1
            exact h2 (op_idle.1 h1)
          · exact h1 this
    · exact lack x hx (.inr h')
  · -- full
    intro i h
    dsimp only at h ⊢
    have old : Register.get (s.r.map n) id = some i → Full cfg n id ty r.W := fun h =>
      keepW (fun hm => by rw [hk.lackR g hm] at h; cases h) (hk.full i h)
    cases hp with
    | no h1 => rw [h1] at h; exact old h
    | put m' b i' h1 _ h2 =>
      rw [h2] at h; split at h
      · next hc =>
        have hf := hk.prog g
        rw [h1] at hf
        have hf := hf hc.1.symm hc.2.symm
        have hW : r.W = s.r.W := by
          clear lack keepW keep1 keep2 keep3 hw hm hop old
          rcases ha with rfl | rfl
          · simp only [Register.step, Register.stepGo, h1, Option.some.injEq, Prod.mk.injEq] at hst
            rw [← hst.1]
          · simp [Register.step, Register.stepFail, h1] at hst
        rw [hW]; exact hf
      · exact old h
    | del m' y t h1 h2 =>
      rw [h2] at h; split at h
      · cases h
      · exact old h
  · -- prog
    intro x
    dsimp only
    by_cases hx : x = g
    · subst hx
      have h0 := hk.prog x
      clear lack keepW keep1 keep2 keep3 hw hm hp hop upipe hpc
      rcases ha with rfl | rfl
      · rg_cases hst
        all_goals (simp only [upd_same, progPc])
        case h_5.isFalse.refl => exact fun _ _ => ⟨fun h => by omega, fun h => by omega⟩
        case h_1.refl =>
          rename_i m b k hpc _ c hc
          intro hm hb
          rw [hpc] at h0
          have h0 := h0 hm hb
          rcases reg_cmd hc with ⟨rfl, rfl⟩ | ⟨rfl, rfl⟩ | ⟨hk2, h⟩
          · obtain ⟨-, ht⟩ := hs.own x m b (by rw [hpc]; rfl) hb
            subst hm hb ht
            exact ⟨fun _ => by simp [Redis.run, AddressBook.set]; rfl, fun h => by omega⟩
          · obtain ⟨-, ht⟩ := hs.own x m b (by rw [hpc]; rfl) hb
            subst hm hb ht
            refine ⟨fun _ => h0.1 (by omega), fun _ => ?_⟩
            simp only [Redis.run, AddressBook.set, if_true]
            split
            · assumption
            · exact List.mem_append_right _ (List.mem_singleton.2 rfl)
          · rw [(h _).1, (h _).2]
            exact ⟨fun _ => h0.1 (by omega), fun _ => h0.2 hk2⟩
        case h_2.refl =>
          rename_i m b k hpc _ hc
          intro hm hb
          rw [hpc] at h0
          have h0 := h0 hm hb
          have : 5 ≤ k := List.getElem?_eq_none_iff.1 hc
          exact ⟨h0.1 (by omega), h0.2 (by omega)⟩
        case h_7.refl =>
          rename_i m b hpc
          intro hm hb
          rw [hpc] at h0
          exact ⟨h0 hm hb, by simp [Register.setIdmap, hm, hb]⟩
        case h_8.refl =>
          rename_i m b hpc
          intro hm hb
          rw [hpc] at h0
          exact h0 hm hb
      · rg_cases hst
        all_goals (simp only [upd_same, progPc])
    · rw [hpc x hx]
      have h0 := hk.prog x
      have hno : ∀ m b, (s.r.pc x).op = some (.reg m b) → m = n → b.id = id → missPc n id (s.r.pc g) → False := by
        rintro m b h1 rfl h2 h3
        exact others hk hs (fun h => hx h.symm) h1 h2 (.inl h3)
      cases hp' : s.r.pc x <;> simp only [progPc]
      all_goals
        rw [hp'] at h0
        intro h1 h2
        have h0 := h0 h1 h2
        have hno := hno _ _ (by rw [hp']; rfl) h1 h2
        first
          | exact ⟨fun h => keep1 hno (h0.1 h), fun h => keep2 hno (h0.2 h)⟩
          | exact ⟨keep1 hno h0.1, keep2 hno h0.2⟩
          | exact keepW hno h0

theorem keep_c {s s' : State} {g : Nat} {evs : List Ev} (hcfg : OwnAddress cfg n)
    (hk : Keep cfg n id ty s) (hs : Side n id ty s) (hst : CStep cfg factory s g s' evs) :
    Keep cfg n id ty s' := by
  -- a record of the actor on a node with its address
  have near : ∀ {m a}, a = record cfg n id ty → a.ip = (cfg m).ip → a.port = (cfg m).port → m = n := by
    rintro m a rfl h1 h2; exact hcfg m h1.symm h2.symm
  -- moving on to a place where nothing is claimed
  have easy : ∀ c' : CPc, (∀ a m t u, c' ≠ .at_ (.resolve a) m t u) → (∀ a m t u, c' ≠ .at_ (.check a) m t u) →
      (∀ m t u, c' ≠ .at_ .clean m t u) →
      (missC n id ty c' → Register.get (s.r.map n) id = none) → Keep cfg n id ty ⟨s.r, upd s.c g c'⟩ := by
    intro c' h1 h2 h3 h4
    refine ⟨hk.idA, hk.tyA, hk.idmap, hk.mapM, hk.mapI, ?_, ?_, ?_, hk.lackR, ?_, hk.full, hk.prog⟩
    · intro x m t u a h
      dsimp only at h; rw [upd_apply] at h; split at h
      · exact absurd h (h1 _ _ _ _)
      · exact hk.addr x m t u a h
    · intro x m t u a h
      dsimp only at h; rw [upd_apply] at h; split at h
      · exact absurd h (h2 _ _ _ _)
      · exact hk.addr2 x m t u a h
    · intro x m w h
      refine ⟨(hk.cleanOp x m w h).1, fun t u hc => ?_⟩
      dsimp only at hc; rw [upd_apply] at hc; split at hc
      · exact absurd hc (h3 _ _ _)
      · exact (hk.cleanOp x m w h).2 t u hc
    · intro x h
      dsimp only at h; rw [upd_apply] at h; split at h
      · exact h4 h
      · exact hk.lackC x h
  -- moving on to `resolve`
  have res : ∀ a m t u, (a.actorId = id → (a.ip = (cfg m).ip → a.port = (cfg m).port → m = n) ∧ Asks id ty t u) →
      (m = n → a.actorId = id → Register.get (s.r.map n) id = none) →
      Keep cfg n id ty ⟨s.r, upd s.c g (.at_ (.resolve a) m t u)⟩ := by
    intro a m t u h1 h2
    refine ⟨hk.idA, hk.tyA, hk.idmap, hk.mapM, hk.mapI, ?_, ?_, ?_, hk.lackR, ?_, hk.full, hk.prog⟩
    · intro x m' t' u' a' h
      dsimp only at h; rw [upd_apply] at h; split at h
      · cases h; exact h1
      · exact hk.addr x m' t' u' a' h
    · intro x m' t' u' a' h
      dsimp only at h; rw [upd_apply] at h; split at h
      · cases h
      · exact hk.addr2 x m' t' u' a' h
    · intro x m' w h
      refine ⟨(hk.cleanOp x m' w h).1, fun t' u' hc => ?_⟩
      dsimp only at hc; rw [upd_apply] at hc; split at hc
      · cases hc
      · exact (hk.cleanOp x m' w h).2 t' u' hc
    · intro x h
      dsimp only at h; rw [upd_apply] at h; split at h
      · exact h2 h.1 h.2
      · exact hk.lackC x h
  have lackC := hk.lackC g
  cases hst with
  | mapHit => exact easy _ (by simp) (by simp) (by simp) (fun h => h.elim)
  | mapMiss hc h => exact easy _ (by simp) (by simp) (by simp) (fun ⟨h1, h2⟩ => by rw [← h1, ← h2]; exact h)
  | @bookHit m t u hc h =>
    rw [hc] at lackC
    refine res _ _ _ _ (fun h1 => ⟨fun _ _ => ?_, .inl h1⟩) (fun h1 h2 => lackC ⟨h1, h2⟩)
    have h1 : t = id := h1
    rcases Classical.em (m = n) with h2 | h2
    · exact h2
    · have := hk.idmap m h2; rw [h1, this] at h; cases h
  | bookMiss hc h =>
    rw [hc] at lackC
    exact easy _ (by simp) (by simp) (by simp) (fun h => lackC h)
  | redisMiss => exact easy _ (by simp) (by simp) (by simp) (fun h => h.elim)
  | @redisHit m t u a hc h =>
    rw [hc] at lackC
    have ha := hs.shape.ids _ _ h
    refine res _ _ _ _ (fun h1 => ?_) (fun h1 h2 => lackC ⟨h1, ha.symm.trans h2⟩)
    have ht : t = id := ha.symm.trans h1
    exact ⟨near (hk.idA a (by rw [← ht]; exact h)), .inl ht⟩
  | checkHit => exact easy _ (by simp) (by simp) (by simp) (fun h => h.elim)
  | @checkMiss m t u a hc h =>
    exact res _ _ _ _ (fun h1 => hk.addr2 g _ _ _ _ hc h1) (fun h1 h2 => by rw [← h1, ← h2]; exact h)
  | @scan m t u hc h =>
    refine easy _ (by simp) (by simp) (by simp) (fun ⟨h1, h2⟩ => ?_)
    subst h1
    cases hg : Register.get (s.r.map m) id with
    | none => rfl
    | some i =>
      have := Register.get_any (f := fun i => decide ((s.r.inst i).ty = u)) h hg
      have h3 := (hk.mapI i hg).1
      simp [h3, h2] at this
  | panic => exact easy _ (by simp) (by simp) (by simp) (fun h => h.elim)
  | noId => exact easy _ (by simp) (by simp) (by simp) (fun h => h.elim)
  | forward => exact easy _ (by simp) (by simp) (by simp) (fun h => h.elim)
  | found => exact easy _ (by simp) (by simp) (by simp) (fun h => h.elim)
  | fail => exact easy _ (by simp) (by simp) (by simp) (fun h => h.elim)
  | @pick m t u a hc h =>
    refine ⟨hk.idA, hk.tyA, hk.idmap, hk.mapM, hk.mapI, ?_, ?_, ?_, hk.lackR, ?_, hk.full, hk.prog⟩
    · intro x m' t' u' a' h
      dsimp only at h; rw [upd_apply] at h; split at h
      · cases h
      · exact hk.addr x m' t' u' a' h
    · intro x m' t' u' a' h'
      dsimp only at h'; rw [upd_apply] at h'; split at h'
      · cases h'
        intro h1
        have hA := hk.tyA _ _ h h1
        refine ⟨near hA, .inr ⟨.inl (hs.shape.tgt1 g _ _ _ hc), ?_⟩⟩
        have := hs.shape.tys _ _ h
        rw [hA] at this; exact this.symm
      · exact hk.addr2 x m' t' u' a' h'
    · intro x m' w h
      refine ⟨(hk.cleanOp x m' w h).1, fun t' u' hc => ?_⟩
      dsimp only at hc; rw [upd_apply] at hc; split at hc
      · cases hc
      · exact (hk.cleanOp x m' w h).2 t' u' hc
    · intro x h
      dsimp only at h; rw [upd_apply] at h; split at h
      · exact h.elim
      · exact hk.lackC x h
  | @pick2 m t u a hc h =>
    rw [hc] at lackC
    have key : a.actorId = id → u = ty ∧ a = record cfg n id ty := by
      intro h1
      have hA := hk.tyA _ _ h h1
      have := hs.shape.tys _ _ h
      rw [hA] at this; exact ⟨this.symm, hA⟩
    refine res _ _ _ _ (fun h1 => ?_) (fun h1 h2 => lackC ⟨h1, (key h2).1⟩)
    exact ⟨near (key h1).2, .inr ⟨.inr (hs.shape.tgt4 g _ _ _ hc), (key h1).1⟩⟩
  | @clean m t u a w hc h1 h2 hp =>
    rw [hc] at lackC
    have hpc : ∀ x (P : Register.Pc → Prop), P (.uGet (.clean m a.actorId w) m a.actorId w) →
        (x ≠ g → P (s.r.pc x)) → P (upd s.r.pc g (.uGet (.clean m a.actorId w) m a.actorId w) x) := by
      intro x P h1 h2
      by_cases hx : x = g
      · subst hx; rw [upd_same]; exact h1
      · rw [upd_of_ne _ _ hx]; exact h2 hx
    refine ⟨hk.idA, hk.tyA, hk.idmap, hk.mapM, hk.mapI, ?_, ?_, ?_, ?_, ?_, hk.full, ?_⟩
    · intro x m' t' u' a' h
      dsimp only at h; rw [upd_apply] at h; split at h
      · cases h
      · exact hk.addr x m' t' u' a' h
    · intro x m' t' u' a' h
      dsimp only at h; rw [upd_apply] at h; split at h
      · cases h
      · exact hk.addr2 x m' t' u' a' h
    · intro x m' w' h
      dsimp only at h ⊢
      by_cases hx : x = g
      · subst hx
        rw [upd_same] at h
        have h : a.actorId = id ∧ m = m' := by
          simp only [Register.Pc.op, Option.some.injEq, Register.Op.clean.injEq] at h
          exact ⟨h.2.1, h.1⟩
        obtain ⟨hi, rfl⟩ := h
        obtain ⟨a1, a2⟩ := hk.addr x _ _ _ _ hc hi
        refine ⟨a1 h1 h2, fun t' u' hc' => ?_⟩
        rw [upd_same] at hc'; cases hc'
        exact a2
      · rw [upd_of_ne _ _ hx] at h
        refine ⟨(hk.cleanOp x m' w' h).1, fun t' u' hc' => ?_⟩
        rw [upd_of_ne _ _ hx] at hc'
        exact (hk.cleanOp x m' w' h).2 t' u' hc'
    · intro x
      refine hpc x (fun p => missPc n id p → Register.get (s.r.map n) id = none) (fun h => lackC h)
        (fun _ => hk.lackR x)
    · intro x h
      dsimp only at h; rw [upd_apply] at h; split at h
      · exact h.elim
      · exact hk.lackC x h
    · intro x
      exact hpc x (progPc cfg n id ty s.r.W) trivial (fun _ => hk.prog x)

theorem keep_step {s s' : State} {evs : List Ev} (hcfg : OwnAddress cfg n)
    (hk : Keep cfg n id ty s) (hs : Side n id ty s) (hst : Step cfg factory s s' evs) : Keep cfg n id ty s' := by
  cases hst with
  | reg ha hr => exact keep_reg hk hs ha hr
  | callEmpty _ _ => exact hk
  | c hc => exact keep_c hcfg hk hs hc
  | @regStart g m b hc hp =>
    have hpc : ∀ x (P : Register.Pc → Prop), P (.rMap m b) → (x ≠ g → P (s.r.pc x)) →
        P (upd s.r.pc g (.rMap m b) x) := by
      intro x P h1 h2
      by_cases hx : x = g
      · subst hx; rw [upd_same]; exact h1
      · rw [upd_of_ne _ _ hx]; exact h2 hx
    refine ⟨hk.idA, hk.tyA, hk.idmap, hk.mapM, hk.mapI, hk.addr, hk.addr2, ?_, ?_, hk.lackC, hk.full, ?_⟩
    · intro x m' w
      exact hpc x (fun p => p.op = some (.clean m' id w) → _) (by simp [Register.Pc.op])
        (fun _ => hk.cleanOp x m' w)
    · intro x
      exact hpc x (fun p => missPc n id p → _) (fun h => h.elim) (fun _ => hk.lackR x)
    · intro x
      exact hpc x (progPc cfg n id ty s.r.W) trivial (fun _ => hk.prog x)
  | @unregStart g m y t hc hp =>
    have hpc : ∀ x (P : Register.Pc → Prop), P (.uMap m y t) → (x ≠ g → P (s.r.pc x)) →
        P (upd s.r.pc g (.uMap m y t) x) := by
      intro x P h1 h2
      by_cases hx : x = g
      · subst hx; rw [upd_same]; exact h1
      · rw [upd_of_ne _ _ hx]; exact h2 hx
    refine ⟨hk.idA, hk.tyA, hk.idmap, hk.mapM, hk.mapI, hk.addr, hk.addr2, ?_, ?_, hk.lackC, hk.full, ?_⟩
    · intro x m' w
      exact hpc x (fun p => p.op = some (.clean m' id w) → _) (by simp [Register.Pc.op])
        (fun _ => hk.cleanOp x m' w)
    · intro x
      exact hpc x (fun p => missPc n id p → _) (fun h => h.elim) (fun _ => hk.lackR x)
    · intro x
      exact hpc x (progPc cfg n id ty s.r.W) trivial (fun _ => hk.prog x)
  | @call g m t u p hc hp h1 h2 h3 h4 h5 h6 h7 =>
    have hne : ∀ q m' t' u', CPc.at_ p m t u = .at_ q m' t' u' → q = .pick ∨ q = .scan ∨ q = .map := by
      rintro q m' t' u' h; cases h; exact h5
    refine ⟨hk.idA, hk.tyA, hk.idmap, hk.mapM, hk.mapI, ?_, ?_, ?_, hk.lackR, ?_, hk.full, hk.prog⟩
    · intro x m' t' u' a' h
      dsimp only at h; rw [upd_apply] at h; split at h
      · have := hne _ _ _ _ h; simp at this
      · exact hk.addr x m' t' u' a' h
    · intro x m' t' u' a' h
      dsimp only at h; rw [upd_apply] at h; split at h
      · have := hne _ _ _ _ h; simp at this
      · exact hk.addr2 x m' t' u' a' h
    · intro x m' w h
      refine ⟨(hk.cleanOp x m' w h).1, fun t' u' hc => ?_⟩
      dsimp only at hc; rw [upd_apply] at hc; split at hc
      · have := hne _ _ _ _ hc; simp at this
      · exact (hk.cleanOp x m' w h).2 t' u' hc
    · intro x h
      dsimp only at h; rw [upd_apply] at h; split at h
      · rcases h5 with rfl | rfl | rfl <;> exact h.elim
      · exact hk.lackC x h

theorem side_run {h : List Ev} {s : State} (hr : (sys cfg factory).Run h s) (ho : Owned n id ty h)
    (ha : Apart n id ty h) : Side n id ty s := by
  have hl := link_run hr
  have begun : ∀ g o, cur s g = some o → ∃ e ∈ h, begins e = some o := by
    intro g o hc
    have hm := (active_iff hr g o).2 hc
    clear hc hl ha ho hr
    unfold activeOf at hm
    have : ∀ l : List Ev, (g, o) ∈ active l → ∃ e ∈ l, begins e = some o := by
      intro l
      induction l with
      | nil => intro h; cases h
      | cons e l ih =>
        intro h
        have tail : (g, o) ∈ active l → ∃ e' ∈ e :: l, begins e' = some o := fun h =>
          let ⟨e', h1, h2⟩ := ih h; ⟨e', List.mem_cons_of_mem _ h1, h2⟩
        unfold active at h
        split at h
        · cases h
        all_goals (rename_i heq; cases heq)
        all_goals first
          | exact tail h
          | exact tail (List.mem_of_mem_filter h)
          | exact tail (List.mem_filter.1 h).1
          | (rcases List.mem_cons.1 h with h | h
             · cases h; exact ⟨_, List.mem_cons_self, rfl⟩
             · exact tail h)
    obtain ⟨e, h1, h2⟩ := this _ hm
    exact ⟨e, List.mem_reverse.1 h1, h2⟩
  refine ⟨hl, shape_run hr, ?_, ?_, ex_run hr ha⟩
  · intro g m b h hb
    obtain ⟨e, h1, h2⟩ := begun g _ (cur_reg hl h)
    exact ho e h1 _ h2 hb
  · intro g m t h
    obtain ⟨e, h1, h2⟩ := begun g _ (cur_unreg hl h)
    exact ho e h1 _ h2 rfl

theorem keep_run {h : List Ev} {s : State} (hcfg : OwnAddress cfg n) (hr : (sys cfg factory).Run h s)
    (ho : Owned n id ty h) (ha : Apart n id ty h) : Keep cfg n id ty s := by
  revert ho ha
  refine hr.invariant (P := fun h s => Owned n id ty h → Apart n id ty h → Keep cfg n id ty s) ?_ ?_
  · intro _ _
    exact ⟨fun _ h => (nomatch h), fun _ _ h => (nomatch h), fun _ _ => rfl, fun _ _ => rfl, fun _ h => (nomatch h),
      fun _ _ _ _ _ h => (nomatch h), fun _ _ _ _ _ h => (nomatch h), fun _ _ _ h => (nomatch h), fun _ h => h.elim,
      fun _ h => h.elim, fun _ h => (nomatch h), fun _ => trivial⟩
  · intro h s a s' evs hr hi hs ho ha
    have ho' := owned_prefix ho
    have ha' := apart_prefix ha
    exact keep_step hcfg (hi ho' ha') (side_run hr ho' ha') (step_rel hs)

end Braid.Live
