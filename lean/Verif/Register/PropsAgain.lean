import Verif.Register.SpecAgain
import Verif.Register.Props

/-
C127: an id that was unregistered can be registered again.
-/
namespace Braid.Register
open Braid AddressBook Spec

variable {cfg : Nat → NodeCfg} {factory : Nat → String → Option Int}

theorem calm_step {s s' : State} {a : Act} {evs : List Ev} (hs : (calm cfg factory).step s a = some (s', evs)) :
    (∀ g, a ≠ .fail g) ∧ step cfg factory s a = some (s', evs) := by
  cases a with
  | fail g => cases hs
  | start g o => exact ⟨by simp, hs⟩
  | go g => exact ⟨by simp, hs⟩

theorem calm_run {h : List Ev} {s : State} (hr : (calm cfg factory).Run h s) : (sys cfg factory).Run h s :=
  Lts.Run.invariant (M := calm cfg factory) (P := fun h s => (sys cfg factory).Run h s) .init
    (fun _ _ _ _ _ _ hi hs => Lts.Run.step hi (calm_step hs).2) hr

theorem calm_exec : ∀ {as : List Act} {s s' : State} {evs : List Ev}, (calm cfg factory).exec s as = some (s', evs) →
    (sys cfg factory).exec s as = some (s', evs)
  | [], _, _, _, h => h
  | a :: as, s, s', evs, h => by
    simp only [Lts.exec] at h ⊢
    cases hs : (calm cfg factory).step s a with
    | none => simp [hs] at h
    | some r =>
      obtain ⟨s1, e1⟩ := r
      have hs' : (sys cfg factory).step s a = some (s1, e1) := (calm_step hs).2
      simp only [hs] at h
      simp only [hs']
      cases he : (calm cfg factory).exec s1 as with
      | none => simp [he] at h
      | some r => rw [calm_exec he]; simpa [he] using h

/-- The commands of `Register` write the record of the id first, and no other. -/
theorem reg_ids {m : Nat} {ty x : String} {w : Int} {k : Nat} {c : Cmd} (h : (registerCmds cfg m ty x w)[k]? = some c)
    (r : Redis) (id : String) : (r.run c).ids id = if id = x ∧ k = 0 then some (addrOf cfg m ty x) else r.ids id := by
  rcases k with _ | _ | _ | _ | _ | k <;> simp [registerCmds] at h <;> subst h <;> simp [Redis.run, AddressBook.set]

theorem reg_done {m : Nat} {ty x : String} {w : Int} {k : Nat} (h : (registerCmds cfg m ty x w)[k]? = none) : k ≠ 0 := by
  rintro rfl; simp [registerCmds] at h

/-- The commands of `Unregister` remove the record of the id first, and no other. -/
theorem unreg_ids {m : Nat} {a : Addr} {x : String} {w : Int} {k : Nat} {c : Cmd} (h : (unregisterCmds cfg m a x w)[k]? = some c)
    (r : Redis) (id : String) : (r.run c).ids id = if id = x ∧ k = 0 then none else r.ids id := by
  rcases k with _ | _ | _ | _ | k <;> simp [unregisterCmds] at h <;> subst h <;> simp [Redis.run, AddressBook.set]

theorem unreg_done {m : Nat} {a : Addr} {x : String} {w : Int} {k : Nat} (h : (unregisterCmds cfg m a x w)[k]? = none) : k ≠ 0 := by
  rintro rfl; simp [unregisterCmds] at h

/-- What the map of the node, its `IDMap` and the record say: there is an actor with the id, or there is none. -/
def Agrees (n : Nat) (id : String) (s : State) : Prop :=
  s.W.idmap n id = (get (s.map n) id).isSome ∧ s.W.idmap n id = (s.W.redis.ids id).isSome

/-- What they say depends on where the goroutine is that works on the id. -/
def GoodId (n : Nat) (id : String) (s : State) : Pc → Prop
  | .idle => True
  | .rMap m b | .rUnique m b | .rCount m b | .rBook m b => m = n → b.id = id → Agrees n id s
  | .rPipe m b k => m = n → b.id = id →
    get (s.map n) id = none ∧ s.W.idmap n id = false ∧ (k ≠ 0 → s.W.redis.ids id ≠ none)
  | .rIdmap m b => m = n → b.id = id → get (s.map n) id = none ∧ s.W.redis.ids id ≠ none
  | .rBuild m b | .rInsert m b _ => m = n → b.id = id →
    get (s.map n) id = none ∧ s.W.redis.ids id ≠ none ∧ s.W.idmap n id = true
  | .uMap m x _ => m = n → x = id → Agrees n id s
  | .uExit m x _ _ => m = n → x = id → Agrees n id s ∧ get (s.map n) id ≠ none
  | .uDel m x _ => m = n → x = id → s.W.idmap n id = true ∧ s.W.redis.ids id ≠ none
  | .uFactory m x _ | .uGet _ m x _ => m = n → x = id →
    get (s.map n) id = none ∧ s.W.idmap n id = (s.W.redis.ids id).isSome
  | .uPipe _ m _ x _ k => m = n → x = id →
    get (s.map n) id = none ∧ s.W.idmap n id = true ∧ (k ≠ 0 → s.W.redis.ids id = none)
  | .uIdmap _ m x => m = n → x = id → get (s.map n) id = none ∧ s.W.redis.ids id = none

structure InvAg (n : Nat) (id : String) (s : State) : Prop where
  good : ∀ g, GoodId n id s (s.pc g)
  quiet : (∀ g o, (s.pc g).op = some o → idOf o ≠ id) → Agrees n id s

/-- Node and id of the last part of `Unregister` are those of the operation. -/
def OpWf : Pc → Prop
  | .uGet o n id _ => (∃ ty, o = .unreg n id ty) ∨ ∃ w, o = .clean n id w
  | .uPipe o n _ id _ _ => (∃ ty, o = .unreg n id ty) ∨ ∃ w, o = .clean n id w
  | .uIdmap o n id => (∃ ty, o = .unreg n id ty) ∨ ∃ w, o = .clean n id w
  | _ => True

theorem opWf_run {h : List Ev} {s : State} (hr : (sys cfg factory).Run h s) : ∀ g, OpWf (s.pc g) := by
  refine hr.invariant (P := fun _ s => ∀ g, OpWf (s.pc g)) (by intro g; exact trivial) ?_
  intro h s a s' evs _ hi hs g
  replace hs : step cfg factory s a = some (s', evs) := hs
  have hg := hi g
  rg_cases hs
  all_goals simp only [upd_apply]
  all_goals split
  all_goals first
    | exact hg
    | exact trivial
    | (subst_vars; simp_all [OpWf])

theorem good_vac {n : Nat} {id : String} {p : Pc} (hw : OpWf p) (h : ∀ o, p.op = some o → idOf o ≠ id) (s : State) :
    GoodId n id s p := by
  cases p <;> simp only [GoodId, Pc.op, Option.some.injEq, forall_eq', idOf] at h ⊢
  case uGet => rcases hw with ⟨ty, rfl⟩ | ⟨w, rfl⟩ <;> exact fun _ h2 => absurd h2 h
  case uPipe => rcases hw with ⟨ty, rfl⟩ | ⟨w, rfl⟩ <;> exact fun _ h2 => absurd h2 h
  case uIdmap => rcases hw with ⟨ty, rfl⟩ | ⟨w, rfl⟩ <;> exact fun _ h2 => absurd h2 h
  all_goals exact fun _ h2 => absurd h2 h

theorem good_frame {n : Nat} {id : String} {p : Pc} {s s' : State} (h : GoodId n id s p)
    (h1 : get (s'.map n) id = get (s.map n) id) (h2 : s'.W.idmap n id = s.W.idmap n id)
    (h3 : s'.W.redis.ids id = s.W.redis.ids id) : GoodId n id s' p := by
  cases p <;> simp only [GoodId, Agrees, h1, h2, h3] at h ⊢ <;> exact h

theorem idmap_set (W : World) (n m : Nat) (id x : String) (v : Bool) :
    (setIdmap W m x v).idmap n id = if n = m ∧ id = x then v else W.idmap n id := rfl

theorem redis_set (W : World) (m : Nat) (x : String) (v : Bool) : (setIdmap W m x v).redis = W.redis := rfl

theorem eq_isSome {α : Type} {b : Bool} {o : Option α} : b = o.isSome ↔ (b = true ↔ o ≠ none) := by
  cases b <;> cases o <;> simp

/-- A step on another id. -/
theorem invAg_other {n : Nat} {id : String} {s s' : State} {g : Nat} {p : Pc} (hi : InvAg n id s) (hpc : s'.pc = upd s.pc g p)
    (hw : OpWf p) (hold : ∀ o, (s.pc g).op = some o → idOf o ≠ id) (hnew : ∀ o, p.op = some o → idOf o ≠ id)
    (h1 : get (s'.map n) id = get (s.map n) id) (h2 : s'.W.idmap n id = s.W.idmap n id)
    (h3 : s'.W.redis.ids id = s.W.redis.ids id) : InvAg n id s' := by
  refine ⟨fun g' => ?_, fun hq => ?_⟩
  · rw [hpc, upd_apply]
    split
    · exact good_vac hw hnew s'
    · exact good_frame (hi.good g') h1 h2 h3
  · have := hi.quiet fun g' o ho => by
      by_cases hg : g' = g
      · subst hg; exact hold o ho
      · exact hq g' o (by rw [hpc, upd_of_ne _ _ hg]; exact ho)
    simpa only [Agrees, h1, h2, h3] using this

/-- A step on this id. -/
theorem invAg_own {n : Nat} {id : String} {s s' : State} {g : Nat} {p : Pc} (hw : ∀ g, OpWf (s.pc g)) (hpc : s'.pc = upd s.pc g p)
    (hoth : ∀ g' o, g' ≠ g → (s.pc g').op = some o → idOf o ≠ id)
    (hg : GoodId n id s' p) (hq : p = .idle ∨ (∃ o, p.op = some o ∧ idOf o = id)) (ha : p = .idle → Agrees n id s') :
    InvAg n id s' := by
  refine ⟨fun g' => ?_, fun hall => ?_⟩
  · rw [hpc, upd_apply]
    split
    · exact hg
    · rename_i hne
      exact good_vac (hw g') (fun o => hoth g' o hne) s'
  · rcases hq with hq | ⟨o, h1, h2⟩
    · exact ha hq
    · exact absurd h2 (hall g o (by rw [hpc, upd_same]; exact h1))

theorem invAg_step {n : Nat} {id : String} {s s' : State} {a : Act} {evs : List Ev} (hop : ∀ g, OpWf (s.pc g))
    (one : ∀ g o, (s.pc g).op = some o → idOf o = id → (∃ b, o = .reg n b) ∨ ∃ ty, o = .unreg n id ty ∧ factory n ty ≠ none)
    (one' : ∀ g o, a = .start g o → idOf o = id → (∃ b, o = .reg n b) ∨ ∃ ty, o = .unreg n id ty ∧ factory n ty ≠ none)
    (ex : ∀ g g' o o', (s.pc g).op = some o → (s.pc g').op = some o' → idOf o = id → idOf o' = id → g = g')
    (ex' : ∀ g g' o o', a = .start g o → (s.pc g').op = some o' → idOf o = id → idOf o' ≠ id)
    (hf : ∀ g, a ≠ .fail g) (hi : InvAg n id s) (hs : step cfg factory s a = some (s', evs)) : InvAg n id s' := by
  cases a with
  | fail g => exact absurd rfl (hf g)
  | start g o =>
    have hidle : s.pc g = .idle ∧ ∃ p, s' = { s with pc := upd s.pc g p } ∧ OpWf p ∧ p.op = some o ∧
        (Agrees n id s → idOf o = id → (∀ m x w, o ≠ .clean m x w) → GoodId n id s p) := by
      simp only [step] at hs
      split at hs
      · rename_i hp
        refine ⟨hp, ?_⟩
        cases o <;> cases hs <;> refine ⟨_, rfl, ?_, rfl, ?_⟩ <;> simp [OpWf, GoodId, idOf] <;> exact fun h _ _ _ => h
      · cases hs
    obtain ⟨h0, p, rfl, hw, hp, hgood⟩ := hidle
    by_cases hid : idOf o = id
    · have hall : ∀ g' o', (s.pc g').op = some o' → idOf o' ≠ id := fun g' o' h => ex' g g' o o' rfl h hid
      have hag := hi.quiet hall
      have hc : ∀ m x w, o ≠ .clean m x w := by
        rintro m x w rfl
        rcases one' g _ rfl hid with ⟨b, h⟩ | ⟨ty, h, -⟩ <;> cases h
      refine invAg_own hop rfl (fun g' o' _ => hall g' o') ?_ (.inr ⟨o, hp, hid⟩) (fun _ => hag)
      exact good_frame (hgood hag hid hc) rfl rfl rfl
    · refine invAg_other hi rfl hw (by rw [h0]; simp [Pc.op]) (fun o' h => ?_) rfl rfl rfl
      rw [hp] at h; cases h; exact hid
  | go g =>
    have hgood := hi.good g
    have hwf := hop g
    cases ho : (s.pc g).op with
    | none =>
      have : s.pc g = .idle := by cases h : s.pc g <;> rw [h] at ho <;> first | rfl | cases ho
      simp [step, stepGo, this] at hs
    | some o =>
      by_cases hid : idOf o = id
      · have hoth : ∀ g' o', g' ≠ g → (s.pc g').op = some o' → idOf o' ≠ id :=
          fun g' o' hne h hid' => hne (ex g' g o' o h ho hid' hid)
        have h1 := one g o ho hid
        simp only [step, stepGo, ret, at_] at hs
        cases hp : s.pc g <;> rw [hp] at ho hgood hwf hs <;> dsimp only [Pc.op] at ho hs <;> (repeat' split at hs) <;> cases hs <;> cases ho
        all_goals refine invAg_own hop rfl hoth ?_ ?_ ?_
        all_goals first
          | exact .inl rfl
          | exact .inr ⟨_, rfl, hid⟩
          | (intro h; cases h; done)
          | skip
        all_goals simp only [GoodId, Agrees, idmap_set, redis_set, upd_apply, eq_isSome] at hgood ⊢
        all_goals clear one one' ex ex' hop hi hoth
        all_goals (try simp only [OpWf] at hwf)
        all_goals first
          | (rename_i heq; have hri := reg_ids heq s.W.redis id; grind [reg_done, unreg_ids, unreg_done, idOf])
          | grind [reg_done, unreg_ids, unreg_done, idOf]
      · simp only [step, stepGo, ret, at_] at hs
        cases hp : s.pc g <;> rw [hp] at ho hgood hwf hs <;> dsimp only [Pc.op] at ho hs <;> (repeat' split at hs) <;> cases hs <;> cases ho
        all_goals refine invAg_other hi rfl ?_ (by rw [hp]; intro o h; cases h; exact hid) ?_ ?_ ?_ ?_
        all_goals first
          | rfl
          | exact trivial
          | exact hwf
          | (intro o h; cases h; exact hid)
          | (intro o h; cases h)
          | skip
        all_goals clear one one' ex ex' hop hi
        all_goals (try dsimp only)
        all_goals (try simp only [OpWf] at hwf ⊢)
        all_goals first
          | (rename_i heq; have hri := reg_ids heq s.W.redis id; grind [unreg_ids, idmap_set, redis_set, upd_apply, idOf])
          | grind [unreg_ids, idmap_set, redis_set, upd_apply, idOf]

theorem invAg_run {n : Nat} {id : String} {h : List Ev} {s : State} (hr : (calm cfg factory).Run h s) (hx : Exclusive idKey h)
    (h1 : OneNode factory n id h) : InvAg n id s := by
  revert hx h1
  refine Lts.Run.invariant (M := calm cfg factory)
    (P := fun h s => Exclusive idKey h → OneNode factory n id h → InvAg n id s) ?_ ?_ hr
  · exact fun _ _ => ⟨fun _ => trivial, fun _ => ⟨rfl, rfl⟩⟩
  · intro h s a s' evs hr hi hs hx h1
    have h1' : OneNode factory n id h := fun g o hm => h1 g o (List.mem_append_left _ hm)
    have hx' := excl_prefix hx
    have hr' := calm_run hr
    have hst := (calm_step hs).2
    have hst : step cfg factory s a = some (s', evs) := hst
    have key : ∀ o, (∃ b, o = Op.reg n b) ∨ (∃ ty, o = .unreg n id ty ∧ factory n ty ≠ none) → idOf o = id → idKey o = some (n, id) := by
      rintro o (⟨b, rfl⟩ | ⟨ty, rfl, -⟩) h
      · simp only [idOf] at h; simp [idKey, h]
      · rfl
    have one : ∀ g o, (s.pc g).op = some o → idOf o = id → (∃ b, o = Op.reg n b) ∨ ∃ ty, o = .unreg n id ty ∧ factory n ty ≠ none :=
      fun g o ho hid => h1' g o (begun hr' ho) hid
    have hev : ∀ g o, a = .start g o → evs = [.begin g o] := by
      rintro g o rfl
      simp only [step] at hst
      split at hst
      · cases o <;> cases hst <;> rfl
      · cases hst
    have one' : ∀ g o, a = .start g o → idOf o = id → (∃ b, o = Op.reg n b) ∨ ∃ ty, o = .unreg n id ty ∧ factory n ty ≠ none := by
      intro g o ha hid
      exact h1 g o (by rw [hev g o ha]; simp) hid
    refine invAg_step (opWf_run hr') one one' ?_ ?_ (calm_step hs).1 (hi hx' h1') hst
    · intro g g' o o' ho ho' hid hid'
      apply exclusive_ex hr' hx' g g' (n, id)
      · rw [ho]; exact key _ (one g o ho hid) hid
      · rw [ho']; exact key _ (one g' o' ho' hid') hid'
    · intro g g' o o' ha ho' hid hid'
      exact hx h g o [] (by rw [hev g o ha]) (g', o') ((active_iff hr' g' o').2 ho') (n, id) (key _ (one' g o ha hid) hid)
        (key _ (one g' o' ho' hid') hid')

/-- An actor in the map is alive, until the `Unregister` that stopped it takes it out. -/
theorem live_run {h : List Ev} {s : State} (hr : (sys cfg factory).Run h s) (hx : Exclusive idKey h) :
    (∀ n id i, get (s.map n) id = some i → s.alive i = true ∨ ∃ g ty, s.pc g = .uDel n id ty) ∧
      ∀ g n b i, s.pc g = .rInsert n b i → s.alive i = true := by
  revert hx
  refine hr.invariant (P := fun h s => Exclusive idKey h →
    (∀ n id i, get (s.map n) id = some i → s.alive i = true ∨ ∃ g ty, s.pc g = .uDel n id ty) ∧
      ∀ g n b i, s.pc g = .rInsert n b i → s.alive i = true) ?_ ?_
  · exact fun _ => ⟨fun n id i h => (by cases h), fun g n b i h => (by cases h)⟩
  · intro h s a s' evs hr hi hs hx
    obtain ⟨n1, n2, n3, n4⟩ := invN_run hr
    have hid := invId_run hr (excl_prefix hx)
    obtain ⟨i1, i2, i3, i4, i5⟩ := hid
    replace hi := hi (excl_prefix hx)
    obtain ⟨hi, hj⟩ := hi
    replace hs : step cfg factory s a = some (s', evs) := hs
    have k4 : ∀ g n b i, s.pc g = .rInsert n b i → get (s.map n) b.id = none :=
      fun g n b i h => i3 g n b.id (by rw [h]; rfl)
    have k5 : ∀ g n b i, s.pc g = .rInsert n b i → (s.inst i).node = n ∧ (s.inst i).id = b.id :=
      fun g n b i h => by rw [(n4 g n b i h).2]; exact ⟨rfl, rfl⟩
    clear hx hr i2 i3 i5 n4
    rg_cases hs
    all_goals simp only [upd_apply]
    all_goals constructor
    all_goals first
      | (rename_i g _ n id ty i hp ha
         intro m x j hg
         have hg' := i4 g n id ty i hp
         by_cases hji : j = i
         · subst hji
           have e1 := i1 _ _ _ hg
           have e2 := i1 _ _ _ hg'
           exact .inr ⟨g, ty, by rw [if_pos rfl, ← e1.1, ← e1.2, e2.1, e2.2]⟩
         · rcases hi m x j hg with h | ⟨g', ty', h⟩
           · exact .inl (by rw [if_neg hji]; exact h)
           · exact .inr ⟨g', ty', by rw [if_neg (by rintro rfl; rw [hp] at h; cases h)]; exact h⟩)
      | grind

/-- C127, the part that holds: if one node alone uses the id, and never two goroutines at once, then after each `Unregister` the id
can be registered again, whatever happens with other ids. Missing: ids that several nodes use, see `C127_refuted`. -/
theorem C127_again_partial {h : List Ev} {s : State} (hr : (calm cfg factory).Run h s) (hx : Exclusive idKey h) (n : Nat)
    (b : Builder) (h1 : OneNode factory n b.id h) (hq : Quiet b.id h) (hno : ¬ Has h n b.id) (hid : b.id ≠ "") (hty : b.ty ≠ "")
    (hlim : b.limit = 0) (g : Nat) (hg : ∀ o, (g, o) ∉ activeOf h) : Succeeds cfg factory s g n b := by
  have hr' := calm_run hr
  have hact := active_iff hr'
  have hidle : s.pc g = .idle := by
    cases ho : (s.pc g).op with
    | none => cases h : s.pc g <;> rw [h] at ho <;> first | rfl | cases ho
    | some o => exact absurd ((hact g o).2 ho) (hg o)
  have hag := (invAg_run hr hx h1).quiet fun g' o ho => hq (g', o) ((hact g' o).2 ho)
  have hnone : get (s.map n) b.id = none := by
    cases hm : get (s.map n) b.id with
    | none => rfl
    | some i =>
      rcases (live_run hr' hx).1 n b.id i hm with hal | ⟨g', ty, hp⟩
      · have hH := invH_run hr'
        have hi := (invId_run hr' hx).inst n b.id i hm
        exact absurd ⟨i, s.inst i, ⟨(hH.created i _).2 ⟨(invN_run hr').map n b.id i hm, rfl⟩,
          fun h => by rw [hH.exited, hal] at h; cases h.2⟩, hi.1, hi.2⟩ hno
      · exact absurd rfl (hq (g', .unreg n b.id ty) ((hact g' _).2 (by rw [hp]; rfl)))
  have hbook : s.W.idmap n b.id = false := by rw [hag.1, hnone]; rfl
  have he : ((calm cfg factory).exec s (.start g (.reg n b) :: List.replicate 11 (.go g))).map Prod.snd =
      some [.begin g (.reg n b), .created s.next ⟨n, b.id, b.ty⟩, .finish g .ok] := by
    simp [List.replicate, Lts.exec, calm, step, stepGo, hidle, hid, hty, hnone, hlim, hbook, registerCmds, at_]
  obtain ⟨⟨s', evs⟩, h1, rfl⟩ := Option.map_eq_some_iff.1 he
  exact ⟨_, s', s.next, h1⟩

set_option maxRecDepth 20000 in
/-- "x" was registered and unregistered on node 0, and another goroutine is in a `Register` of another id. -/
example : ∃ h s, (calm exCfg exFactory).Run h s ∧ Exclusive idKey h ∧ OneNode exFactory 0 "x" h ∧ Quiet "x" h ∧
    ¬ Has h 0 "x" ∧ (∀ o, (0, o) ∉ activeOf h) ∧ .exited 0 ∈ h ∧ activeOf h ≠ [] := by
  refine ⟨_, _, Lts.run_of_exec (M := calm exCfg exFactory) (as := .start 0 (.reg 0 bx) :: List.replicate 11 (.go 0) ++
    .start 0 (.unreg 0 "x" "t") :: List.replicate 11 (.go 0) ++ [.start 1 (.reg 0 ⟨"y", "t", 1, 0, false⟩)]) rfl, ?_, ?_, ?_, ?_, ?_,
    ?_, ?_⟩
  · exact exclusive_of_check (by decide)
  · intro g o hm hid
    simp at hm
    rcases hm with ⟨rfl, rfl⟩ | ⟨rfl, rfl⟩ | ⟨rfl, rfl⟩
    · exact .inl ⟨_, rfl⟩
    · exact .inr ⟨_, rfl, by decide⟩
    · exact absurd hid (by decide)
  · unfold Quiet; decide
  · rintro ⟨i, a, ⟨h1, h2⟩, -, -⟩
    simp at h1 h2
    exact h2 h1.1
  · intro o h
    revert h
    simp [activeOf, active]
  · decide
  · decide

/-- Register "x" on node 0 and then on node 1, unregister it on node 1 and then on node 0. Nothing overlaps and nothing fails. -/
def stuckActs : List Act :=
  .start 0 (.reg 0 bx) :: List.replicate 11 (.go 0) ++ .start 0 (.reg 1 bx) :: List.replicate 11 (.go 0) ++
  .start 0 (.unreg 1 "x" "t") :: List.replicate 11 (.go 0) ++ .start 0 (.unreg 0 "x" "t") :: List.replicate 5 (.go 0)

/-- The record of "x" is gone, and the `IDMap` of node 0 still has it. -/
def StuckPc : Pc → Prop
  | .rMap m b | .rUnique m b | .rCount m b | .rBook m b => b.id = "x" → m = 0
  | .rPipe _ b _ | .rIdmap _ b | .rBuild _ b | .rInsert _ b _ => b.id ≠ "x"
  | .uPipe _ _ _ x _ _ | .uIdmap _ _ x => x ≠ "x"
  | _ => True

structure Stuck (s : State) : Prop where
  ids : s.W.redis.ids "x" = none
  idmap : s.W.idmap 0 "x" = true
  pc : ∀ g, StuckPc (s.pc g)

theorem stuck_idle {h : List Ev} {s : State} (hr : (calm cfg factory).Run h s) (ha : activeOf h = []) : ∀ g, StuckPc (s.pc g) := by
  intro g
  have hact := active_iff (calm_run hr) g
  rw [ha] at hact
  cases hp : s.pc g with
  | idle => exact trivial
  | _ => exact absurd ((hact _).2 (by rw [hp]; rfl)) (by simp)

theorem stuck_step {s s' : State} {a : Act} {evs : List Ev} (hi : Stuck s) (hs : step cfg factory s a = some (s', evs))
    (hb : ∀ g m b, .begin g (.reg m b) ∈ evs → b.id = "x" → m = 0) :
    Stuck s' ∧ ∀ i c, .created i c ∈ evs → c.id ≠ "x" := by
  obtain ⟨h1, h2, h3⟩ := hi
  rg_cases hs
  all_goals refine ⟨⟨?_, ?_, fun g' => ?_⟩, ?_⟩
  all_goals first
    | exact h1
    | exact h2
    | (simp; done)
    | skip
  all_goals first
    | (have hg := h3 g'
       simp only [upd_apply]
       split
       · subst_vars
         simp_all [StuckPc]
         done
       · exact hg)
    | skip
  all_goals (try dsimp only)
  all_goals (try simp only [idmap_set])
  · rename_i g _ m b hp hn
    have hg := h3 g'
    simp only [upd_apply]
    split
    · intro hx
      have := h3 g
      rw [hp] at this
      exact hn (by rw [this hx, hx]; exact h2)
    · exact hg
  · rename_i g _ m b k hp _ c hc
    have := h3 g
    rw [hp] at this
    rw [reg_ids hc, if_neg (fun h => this h.1.symm)]; exact h1
  · split
    · rfl
    · exact h2
  · rename_i g _ m b hp
    have := h3 g
    rw [hp] at this
    intro i c hm
    simp at hm
    rw [hm.2]; exact this
  · rename_i g _ o m x w hp _ a ha
    simp only [upd_apply]
    split
    · rintro rfl; rw [h1] at ha; cases ha
    · exact h3 g'
  · rename_i g _ o m a x w k hp _ c hc
    have := h3 g
    rw [hp] at this
    rw [unreg_ids hc, if_neg (fun h => this h.1.symm)]; exact h1
  · rename_i g _ o m x hp
    have := h3 g
    rw [hp] at this
    rw [if_neg (fun h => this h.2.symm)]; exact h2

theorem stuck_exec : ∀ (as : List Act) {s s' : State} {evs : List Ev}, Stuck s → (sys cfg factory).exec s as = some (s', evs) →
    (∀ g m b, .begin g (.reg m b) ∈ evs → b.id = "x" → m = 0) → ∀ i c, .created i c ∈ evs → c.id ≠ "x"
  | [], s, s', evs, _, he, _ => by
    simp only [Lts.exec, Option.some.injEq, Prod.mk.injEq] at he
    rw [← he.2]; simp
  | a :: as, s, s', evs, hi, he, hb => by
    simp only [Lts.exec] at he
    cases hs : (sys cfg factory).step s a with
    | none => simp [hs] at he
    | some r =>
      obtain ⟨s1, e1⟩ := r
      simp only [hs] at he
      cases he1 : (sys cfg factory).exec s1 as with
      | none => simp [he1] at he
      | some r =>
        obtain ⟨s2, e2⟩ := r
        simp only [he1, Option.some.injEq, Prod.mk.injEq] at he
        obtain ⟨rfl, rfl⟩ := he
        obtain ⟨hi1, hc⟩ := stuck_step hi hs fun g m b hm => hb g m b (List.mem_append_left _ hm)
        intro i c hm
        rcases List.mem_append.1 hm with hm | hm
        · exact hc i c hm
        · exact stuck_exec as hi1 he1 (fun g m b hm => hb g m b (List.mem_append_right _ hm)) i c hm

set_option maxRecDepth 20000 in
/-- C127 is violated: "x" was registered on two nodes, one after the other, and then unregistered on both, and every call returned
nil. Nothing overlapped and no Redis access failed. From then on no `Register` of "x" on node 0 succeeds any more, whatever node 0
and the other nodes do, unless another node registers "x" first. The second `Unregister` found no record, so that it returned before
it would have taken the id out of its `IDMap`. -/
theorem C127_stuck_refuted : ∃ h s, (calm exCfg exFactory).Run h s ∧ Exclusive idKey h ∧ activeOf h = [] ∧
    (∀ g r, .finish g r ∈ h → r = .ok) ∧ ¬ Has h 0 "x" ∧ ¬ Has h 1 "x" ∧
    ∀ as s' h', (sys exCfg exFactory).exec s as = some (s', h') →
      (∀ g m b, .begin g (.reg m b) ∈ h' → b.id = "x" → m = 0) → ∀ i c, .created i c ∈ h' → c.id ≠ "x" := by
  refine ⟨_, _, Lts.run_of_exec (M := calm exCfg exFactory) (as := stuckActs) rfl, ?_, ?_, ?_, ?_, ?_, ?_⟩
  · exact exclusive_of_check (by decide)
  · decide
  · intro g r hm
    simp at hm
    exact hm.2
  · rintro ⟨i, a, ⟨h1, h2⟩, h3, -⟩
    simp at h1 h2
    grind
  · rintro ⟨i, a, ⟨h1, h2⟩, h3, -⟩
    simp at h1 h2
    grind
  · intro as s' h' he hb
    exact stuck_exec as ⟨by decide, by decide,
      stuck_idle (Lts.run_of_exec (M := calm exCfg exFactory) (as := stuckActs) rfl) (by decide)⟩ he hb

/-- C127 does not hold as stated. -/
theorem C127_refuted : ¬ Again exCfg exFactory := by
  intro hag
  obtain ⟨h, s, hr, hx, ha, -, hno, -, hst⟩ := C127_stuck_refuted
  obtain ⟨as, s', i, he⟩ := hag h s 0 bx hr hx (by rw [Quiet, ha]; simp) hno (by decide) (by decide) rfl 0 (by rw [ha]; simp)
  exact hst _ s' _ (calm_exec he) (by simp; exact fun _ _ _ _ h _ _ => h) i ⟨0, "x", "t"⟩ (by simp [bx]) rfl

end Braid.Register
