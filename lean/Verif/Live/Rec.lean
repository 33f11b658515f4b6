import Verif.Live.Inv

/-
Which records there are, and who may remove them.
-/
namespace Braid.Live
open AddressBook Spec

variable {cfg : Nat → NodeCfg} {factory : Nat → String → Option Int}

theorem reg_cmd {m : Nat} {t x : String} {w : Int} {k : Nat} {c : Cmd}
    (h : (registerCmds cfg m t x w)[k]? = some c) :
    (k = 0 ∧ c = .hsetId x (addrOf cfg m t x)) ∨ (k = 1 ∧ c = .sadd t (addrOf cfg m t x)) ∨
      (2 ≤ k ∧ ∀ r : Redis, (r.run c).ids = r.ids ∧ (r.run c).tys = r.tys) := by
  unfold registerCmds at h
  match k, h with
  | 0, h => cases h; exact .inl ⟨rfl, rfl⟩
  | 1, h => cases h; exact .inr (.inl ⟨rfl, rfl⟩)
  | 2, h => cases h; exact .inr (.inr ⟨by omega, fun _ => ⟨rfl, rfl⟩⟩)
  | 3, h => cases h; exact .inr (.inr ⟨by omega, fun _ => ⟨rfl, rfl⟩⟩)
  | 4, h => cases h; exact .inr (.inr ⟨by omega, fun _ => ⟨rfl, rfl⟩⟩)
  | k + 5, h => cases h

theorem unreg_cmd {m : Nat} {a : Addr} {x : String} {w : Int} {k : Nat} {c : Cmd}
    (h : (unregisterCmds cfg m a x w)[k]? = some c) :
    (k = 0 ∧ c = .hdelId x) ∨ (k = 1 ∧ c = .srem a.actorTy a) ∨
      (2 ≤ k ∧ ∀ r : Redis, (r.run c).ids = r.ids ∧ (r.run c).tys = r.tys) := by
  unfold unregisterCmds at h
  match k, h with
  | 0, h => cases h; exact .inl ⟨rfl, rfl⟩
  | 1, h => cases h; exact .inr (.inl ⟨rfl, rfl⟩)
  | 2, h => cases h; exact .inr (.inr ⟨by omega, fun _ => ⟨rfl, rfl⟩⟩)
  | 3, h => cases h; exact .inr (.inr ⟨by omega, fun _ => ⟨rfl, rfl⟩⟩)
  | k + 4, h => cases h

/-- What a step does in Redis. -/
inductive Writes (cfg : Nat → NodeCfg) (r r' : Register.State) (g : Nat) : Prop
  | no : r'.W.redis.ids = r.W.redis.ids → r'.W.redis.tys = r.W.redis.tys → Writes cfg r r' g
  | hset (m : Nat) (b : Register.Builder) : r.pc g = .rPipe m b 0 →
      r'.W.redis.ids = set r.W.redis.ids b.id (some (addrOf cfg m b.ty b.id)) →
      r'.W.redis.tys = r.W.redis.tys → Writes cfg r r' g
  | sadd (m : Nat) (b : Register.Builder) : r.pc g = .rPipe m b 1 →
      r'.W.redis.ids = r.W.redis.ids →
      (∀ t a, a ∈ r'.W.redis.tys t ↔ a ∈ r.W.redis.tys t ∨ t = b.ty ∧ a = addrOf cfg m b.ty b.id) →
      Writes cfg r r' g
  | hdel (o : Register.Op) (m : Nat) (a : Addr) (x : String) (w : Int) : r.pc g = .uPipe o m a x w 0 →
      r'.W.redis.ids = set r.W.redis.ids x none →
      r'.W.redis.tys = r.W.redis.tys → Writes cfg r r' g
  | srem (o : Register.Op) (m : Nat) (a : Addr) (x : String) (w : Int) : r.pc g = .uPipe o m a x w 1 →
      r'.W.redis.ids = r.W.redis.ids →
      (∀ t a', a' ∈ r'.W.redis.tys t ↔ a' ∈ r.W.redis.tys t ∧ ¬ (t = a.actorTy ∧ a' = a)) → Writes cfg r r' g

theorem writes {r r' : Register.State} {g : Nat} {a : Register.Act} {e : List Register.Ev}
    (ha : a = .go g ∨ a = .fail g) (hs : Register.step cfg factory r a = some (r', e)) : Writes cfg r r' g := by
  rcases ha with rfl | rfl
  · rg_cases hs
    all_goals first
      | exact .no rfl rfl
      | (rename_i n b k hpc _ c hc
         rcases reg_cmd hc with ⟨rfl, rfl⟩ | ⟨rfl, rfl⟩ | ⟨-, h⟩
         · exact .hset _ _ hpc rfl rfl
         · refine .sadd _ _ hpc rfl (fun t a => ?_)
           simp only [Redis.run, AddressBook.set]
           by_cases ht : t = b.ty
           · rw [if_pos ht]
             subst ht
             split <;> simp_all
           · rw [if_neg ht]; simp [ht]
         · exact .no (h _).1 (h _).2)
      | (rename_i o n a0 x w k hpc _ c hc
         rcases unreg_cmd hc with ⟨rfl, rfl⟩ | ⟨rfl, rfl⟩ | ⟨-, h⟩
         · exact .hdel _ _ _ _ _ hpc rfl rfl
         · refine .srem _ _ _ _ _ hpc rfl (fun t a => ?_)
           simp only [Redis.run, AddressBook.set]
           by_cases ht : t = a0.actorTy
           · rw [if_pos ht]
             subst ht
             simp
           · rw [if_neg ht]; simp [ht]
         · exact .no (h _).1 (h _).2)
  · rg_cases hs
    all_goals exact .no rfl rfl

/-- What a step does to the `IDMap`s. -/
inductive Marks (r r' : Register.State) (g : Nat) : Prop
  | no : r'.W.idmap = r.W.idmap → Marks r r' g
  | yes (m : Nat) (b : Register.Builder) : r.pc g = .rIdmap m b →
      (∀ m' x, r'.W.idmap m' x = if m' = m ∧ x = b.id then true else r.W.idmap m' x) → Marks r r' g
  | del (o : Register.Op) (m : Nat) (y : String) : r.pc g = .uIdmap o m y →
      (∀ m' x, r'.W.idmap m' x = if m' = m ∧ x = y then false else r.W.idmap m' x) → Marks r r' g

theorem marks {r r' : Register.State} {g : Nat} {a : Register.Act} {e : List Register.Ev}
    (ha : a = .go g ∨ a = .fail g) (hs : Register.step cfg factory r a = some (r', e)) : Marks r r' g := by
  rcases ha with rfl | rfl
  · rg_cases hs
    all_goals first
      | exact .no rfl
      | exact .yes _ _ ‹_› (fun _ _ => rfl)
      | exact .del _ _ _ ‹_› (fun _ _ => rfl)
  · rg_cases hs
    all_goals exact .no rfl

/-- What a step does to the map of the actors. -/
inductive Puts (r r' : Register.State) (g : Nat) : Prop
  | no : r'.map = r.map → Puts r r' g
  | put (m : Nat) (b : Register.Builder) (i : Nat) : r.pc g = .rInsert m b i → r'.pc g = .idle →
      (∀ m' x, Register.get (r'.map m') x = if m' = m ∧ x = b.id then some i else Register.get (r.map m') x) →
      Puts r r' g
  | del (m : Nat) (y t : String) : r.pc g = .uDel m y t →
      (∀ m' x, Register.get (r'.map m') x = if m' = m ∧ x = y then none else Register.get (r.map m') x) →
      Puts r r' g

theorem puts {r r' : Register.State} {g : Nat} {a : Register.Act} {e : List Register.Ev}
    (ha : a = .go g ∨ a = .fail g) (hs : Register.step cfg factory r a = some (r', e)) : Puts r r' g := by
  rcases ha with rfl | rfl
  · rg_cases hs
    all_goals first
      | exact .no rfl
      | (rename_i n b i hpc
         refine .put n b i hpc (by simp) (fun m' x => ?_)
         by_cases hm : m' = n
         · subst hm
           dsimp only
           rw [upd_same, Register.get_put]; simp
         · dsimp only
           rw [upd_of_ne _ _ hm]; simp [hm])
      | (rename_i n y t hpc
         refine .del n y t hpc (fun m' x => ?_)
         by_cases hm : m' = n
         · subst hm
           dsimp only
           rw [upd_same, Register.get_del]; simp
         · dsimp only
           rw [upd_of_ne _ _ hm]; simp [hm])
  · rg_cases hs
    all_goals exact .no rfl

end Braid.Live
