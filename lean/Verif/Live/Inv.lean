import Verif.Live.Spec
import Verif.Register.Inv

/-
Invariants of calls that run while actors are created and removed.
-/
namespace Braid.Live
open AddressBook Spec

variable {cfg : Nat → NodeCfg} {factory : Nat → String → Option Int}

/-- The operation that a goroutine is in. -/
def cur (s : State) (g : Nat) : Option Spec.Op :=
  match s.c g with
  | .at_ _ n target ty => some (.call n target ty)
  | .idle =>
    match (s.r.pc g).op with
    | some (.reg n b) => some (.reg n b)
    | some (.unreg n id ty) => some (.unreg n id ty)
    | _ => none

theorem start_clean (r : Register.State) (g n : Nat) (x : String) (w : Int) :
    Register.step cfg factory r (.start g (.clean n x w)) =
      if r.pc g = .idle then
        some ({ r with pc := upd r.pc g (.uGet (.clean n x w) n x w) }, [.begin g (.clean n x w)])
      else none := by
  simp only [Register.step]
  split <;> simp_all

/-- A step of a call. -/
inductive CStep (cfg : Nat → NodeCfg) (factory : Nat → String → Option Int) (s : State) (g : Nat) :
    State → List Ev → Prop
  | mapHit {n target ty} : s.c g = .at_ .map n target ty → Register.get (s.r.map n) target ≠ none →
      CStep cfg factory s g ⟨s.r, upd s.c g .idle⟩ [.ret g (.here target)]
  | mapMiss {n target ty} : s.c g = .at_ .map n target ty → Register.get (s.r.map n) target = none →
      CStep cfg factory s g ⟨s.r, upd s.c g (.at_ .book n target ty)⟩ []
  | bookHit {n target ty} : s.c g = .at_ .book n target ty → s.r.W.idmap n target = true →
      CStep cfg factory s g ⟨s.r, upd s.c g
        (.at_ (.resolve ⟨target, "", (cfg n).nodeID, (cfg n).ip, (cfg n).port⟩) n target ty)⟩ []
  | bookMiss {n target ty} : s.c g = .at_ .book n target ty → s.r.W.idmap n target = false →
      CStep cfg factory s g ⟨s.r, upd s.c g (.at_ .redis n target ty)⟩ []
  | redisMiss {n target ty} : s.c g = .at_ .redis n target ty → s.r.W.redis.ids target = none →
      CStep cfg factory s g ⟨s.r, upd s.c g .idle⟩ [.ret g .unknown]
  | redisHit {n target ty a} : s.c g = .at_ .redis n target ty → s.r.W.redis.ids target = some a →
      CStep cfg factory s g ⟨s.r, upd s.c g (.at_ (.resolve a) n target ty)⟩ []
  | checkHit {n target ty a} : s.c g = .at_ (.check a) n target ty → Register.get (s.r.map n) a.actorId ≠ none →
      CStep cfg factory s g ⟨s.r, upd s.c g .idle⟩ [.ret g (.here a.actorId)]
  | checkMiss {n target ty a} : s.c g = .at_ (.check a) n target ty → Register.get (s.r.map n) a.actorId = none →
      CStep cfg factory s g ⟨s.r, upd s.c g (.at_ (.resolve a) n target ty)⟩ []
  | scan {n target ty} : s.c g = .at_ .scan n target ty →
      (s.r.map n).any (fun p => (s.r.inst p.2).ty = ty) = false →
      CStep cfg factory s g ⟨s.r, upd s.c g (.at_ .pick2 n target ty)⟩ []
  | panic {n target ty a} : a.ip = (cfg n).ip → a.port = (cfg n).port → s.c g = .at_ (.resolve a) n target ty →
      CStep cfg factory s g ⟨s.r, upd s.c g .idle⟩ [.ret g .panic]
  | noId {n target ty a} : a.ip = (cfg n).ip → a.port = (cfg n).port → s.c g = .at_ (.resolve a) n target ty →
      CStep cfg factory s g ⟨s.r, upd s.c g .idle⟩ [.ret g .selfCall]
  | clean {n target ty a w} : s.c g = .at_ (.resolve a) n target ty → a.ip = (cfg n).ip → a.port = (cfg n).port →
      s.r.pc g = .idle →
      CStep cfg factory s g ⟨{ s.r with pc := upd s.r.pc g (.uGet (.clean n a.actorId w) n a.actorId w) },
        upd s.c g (.at_ .clean n target ty)⟩ [.reg (.begin g (.clean n a.actorId w))]
  | forward {n target ty a} : s.c g = .at_ (.resolve a) n target ty →
      ¬ (a.ip = (cfg n).ip ∧ a.port = (cfg n).port) →
      CStep cfg factory s g ⟨s.r, upd s.c g .idle⟩ [.ret g (.forward a)]
  | pick {n target ty a} : s.c g = .at_ .pick n target ty → a ∈ s.r.W.redis.tys ty →
      CStep cfg factory s g ⟨s.r, upd s.c g (.at_ (.check a) n target ty)⟩ []
  | pick2 {n target ty a} : s.c g = .at_ .pick2 n target ty → a ∈ s.r.W.redis.tys ty →
      CStep cfg factory s g ⟨s.r, upd s.c g (.at_ (.resolve a) n target ty)⟩ []
  | found {n target ty id i} : s.c g = .at_ .scan n target ty → Register.get (s.r.map n) id = some i →
      CStep cfg factory s g ⟨s.r, upd s.c g .idle⟩ [.ret g (.here id)]
  | fail {p n target ty} : s.c g = .at_ p n target ty → p = .redis ∨ p = .pick ∨ p = .pick2 →
      CStep cfg factory s g ⟨s.r, upd s.c g .idle⟩ [.ret g .failed]

/-- Any step. -/
inductive Step (cfg : Nat → NodeCfg) (factory : Nat → String → Option Int) (s : State) : State → List Ev → Prop
  | regStart {g n b} : s.c g = .idle → s.r.pc g = .idle →
      Step cfg factory s ⟨{ s.r with pc := upd s.r.pc g (.rMap n b) }, s.c⟩ [.reg (.begin g (.reg n b))]
  | unregStart {g n id ty} : s.c g = .idle → s.r.pc g = .idle →
      Step cfg factory s ⟨{ s.r with pc := upd s.r.pc g (.uMap n id ty) }, s.c⟩ [.reg (.begin g (.unreg n id ty))]
  | reg {g : Nat} {a : Register.Act} {r : Register.State} {e : List Register.Ev} : a = .go g ∨ a = .fail g →
      Register.step cfg factory s.r a = some (r, e) →
      Step cfg factory s ⟨r, if r.pc g = .idle then upd s.c g .idle else s.c⟩ (e.map .reg)
  | callEmpty {g n : Nat} {ty : String} : s.c g = .idle → s.r.pc g = .idle →
      Step cfg factory s s [.call g n "" ty, .ret g .unknown]
  | call {g n : Nat} {target ty : String} {p : Pt} : s.c g = .idle → s.r.pc g = .idle → target ≠ "" →
      (target = "?" → p = .pick) → (target = "~" → p = .scan) → (target ≠ "?" → target ≠ "~" → p = .map) →
      (p = .pick ∨ p = .scan ∨ p = .map) → (p = .pick → target = "?") → (p = .scan → target = "~") →
      Step cfg factory s ⟨s.r, upd s.c g (.at_ p n target ty)⟩ [.call g n target ty]
  | c {g s' evs} : CStep cfg factory s g s' evs → Step cfg factory s s' evs

theorem step_rel {s s' : State} {a : Act} {evs : List Ev} (hs : step cfg factory s a = some (s', evs)) :
    Step cfg factory s s' evs := by
  cases a with
  | reg a =>
    cases a with
    | start g o =>
      simp only [step] at hs
      split at hs
      · cases hs
      · next o _ _ hc hcl =>
        cases o with
        | reg n b =>
          simp only [Register.step] at hs
          split at hs
          · next heq => split at heq <;> cases heq; cases hs; exact .regStart hc ‹_›
          · cases hs
        | unreg n id ty =>
          simp only [Register.step] at hs
          split at hs
          · next heq => split at heq <;> cases heq; cases hs; exact .unregStart hc ‹_›
          · cases hs
        | clean n id w => exact absurd rfl (hcl n id w)
      · cases hs
    | go g =>
      simp only [step] at hs
      split at hs
      · next heq => cases hs; exact .reg (.inl rfl) heq
      · cases hs
    | fail g =>
      simp only [step] at hs
      split at hs
      · next heq => cases hs; exact .reg (.inr rfl) heq
      · cases hs
  | call g n target ty =>
    simp only [step] at hs
    split at hs
    · next hc hp =>
      split at hs
      · next ht => subst ht; cases hs; exact .callEmpty hc hp
      · next ht =>
        cases hs
        refine .call hc hp ht ?_ ?_ ?_ ?_ ?_ ?_
        all_goals (split <;> (try split) <;> simp_all)
    · cases hs
  | go g =>
    refine .c (g := g) ?_
    simp only [step, stepGo] at hs
    split at hs
    · cases hs
    · next p n target ty hc =>
      split at hs
      · split at hs
        · cases hs; exact .mapHit hc ‹_›
        · next h => cases hs; exact .mapMiss hc (Classical.not_not.1 h)
      · split at hs
        · cases hs; exact .bookHit hc ‹_›
        · next h => cases hs; exact .bookMiss hc (by simpa using h)
      · split at hs
        · cases hs; exact .redisMiss hc ‹_›
        · cases hs; exact .redisHit hc ‹_›
      · split at hs
        · cases hs; exact .checkHit hc ‹_›
        · next h => cases hs; exact .checkMiss hc (Classical.not_not.1 h)
      · split at hs
        · cases hs
        · next h => cases hs; exact .scan hc (by simpa using h)
      · split at hs
        · next ha =>
          split at hs
          · cases hs; exact .panic ha.1 ha.2 hc
          · split at hs
            · cases hs; exact .noId ha.1 ha.2 hc
            · rw [start_clean] at hs
              split at hs
              · next heq =>
                split at heq
                · cases heq; cases hs; exact .clean hc ha.1 ha.2 ‹_›
                · cases heq
              · cases hs
        · cases hs; exact .forward hc ‹_›
      · cases hs
  | pick g a =>
    refine .c (g := g) ?_
    simp only [step] at hs
    split at hs
    · split at hs
      · cases hs; exact .pick ‹_› ‹_›
      · cases hs
    · split at hs
      · cases hs; exact .pick2 ‹_› ‹_›
      · cases hs
    · cases hs
  | found g id =>
    refine .c (g := g) ?_
    simp only [step] at hs
    split at hs
    · split at hs
      · split at hs
        · cases hs; exact .found ‹_› ‹_›
        · cases hs
      · cases hs
    · cases hs
  | fail g =>
    refine .c (g := g) ?_
    simp only [step] at hs
    split at hs
    · cases hs; exact .fail ‹_› (.inl rfl)
    · cases hs; exact .fail ‹_› (.inr (.inl rfl))
    · cases hs; exact .fail ‹_› (.inr (.inr rfl))
    · cases hs

/-- A step of `Register`, `Unregister` or a cleanup. -/
theorem reg_op {r r' : Register.State} {g : Nat} {a : Register.Act} {e : List Register.Ev}
    (ha : a = .go g ∨ a = .fail g) (hs : Register.step cfg factory r a = some (r', e)) :
    (∀ x, x ≠ g → r'.pc x = r.pc x) ∧
    ((r'.pc g).op = (r.pc g).op ∧ r'.pc g ≠ .idle ∧ (∀ x ∈ e, ∃ i, x = .exited i ∨ ∃ a, x = .created i a) ∨
      r'.pc g = .idle ∧ r.pc g ≠ .idle ∧ ∃ res, e = [.finish g res]) := by
  rcases ha with rfl | rfl
  all_goals
    rg_cases hs
    all_goals
      refine ⟨fun x hx => by simp [upd_apply, hx], ?_⟩
      simp_all [Register.Pc.op]

/-- Which goroutine is in a cleanup. -/
structure Link (s : State) : Prop where
  idle : ∀ g p m t u, s.c g = .at_ p m t u → p ≠ .clean → s.r.pc g = .idle
  clean : ∀ g m t u, s.c g = .at_ .clean m t u → ∃ x w, (s.r.pc g).op = some (.clean m x w)
  back : ∀ g m x w, (s.r.pc g).op = some (.clean m x w) → ∃ t u, s.c g = .at_ .clean m t u

theorem op_idle {p : Register.Pc} : p.op = none ↔ p = .idle := by cases p <;> simp [Register.Pc.op]

theorem link_step {s s' : State} {evs : List Ev} (hi : Link s) (hs : Step cfg factory s s' evs) : Link s' := by
  cases hs with
  | callEmpty _ _ => exact hi
  | regStart hc hp =>
    refine ⟨fun g p m t u h1 h2 => ?_, fun g m t u h1 => ?_, fun g m x w h1 => ?_⟩
    · have := hi.idle g p m t u h1 h2
      grind [upd_apply]
    · have := hi.clean g m t u h1
      grind [upd_apply]
    · have := hi.back g m x w
      grind [upd_apply, Register.Pc.op]
  | unregStart hc hp =>
    refine ⟨fun g p m t u h1 h2 => ?_, fun g m t u h1 => ?_, fun g m x w h1 => ?_⟩
    · have := hi.idle g p m t u h1 h2
      grind [upd_apply]
    · have := hi.clean g m t u h1
      grind [upd_apply]
    · have := hi.back g m x w
      grind [upd_apply, Register.Pc.op]
  | @reg g a r e ha hr =>
    obtain ⟨h1, h2⟩ := reg_op ha hr
    refine ⟨fun x p m t u h3 h4 => ?_, fun x m t u h3 => ?_, fun x m y w h3 => ?_⟩
    · by_cases hx : x = g
      · subst hx
        rcases h2 with ⟨h2, h5, -⟩ | ⟨h2, -, -⟩
        · simp only [h5, if_false] at h3
          have := hi.idle x p m t u h3 h4
          rw [this] at h2
          exact op_idle.1 h2
        · exact h2
      · have h6 : s.c x = .at_ p m t u := by
          dsimp only at h3
          split at h3
          · rwa [upd_of_ne _ _ hx] at h3
          · exact h3
        show r.pc x = _
        rw [h1 x hx]; exact hi.idle x p m t u h6 h4
    · by_cases hx : x = g
      · subst hx
        rcases h2 with ⟨h2, h5, -⟩ | ⟨h2, -, -⟩
        · simp only [h5, if_false] at h3
          show ∃ y w, (r.pc x).op = _
          rw [h2]; exact hi.clean x m t u h3
        · simp [h2] at h3
      · have h6 : s.c x = .at_ .clean m t u := by
          dsimp only at h3
          split at h3
          · rwa [upd_of_ne _ _ hx] at h3
          · exact h3
        show ∃ y w, (r.pc x).op = _
        rw [h1 x hx]; exact hi.clean x m t u h6
    · replace h3 : (r.pc x).op = some (.clean m y w) := h3
      by_cases hx : x = g
      · subst hx
        rcases h2 with ⟨h2, h5, -⟩ | ⟨h2, -, -⟩
        · simp only [h5, if_false]
          exact hi.back x m y w (by rw [← h2]; exact h3)
        · rw [h2] at h3; cases h3
      · rw [h1 x hx] at h3
        obtain ⟨t, u, h⟩ := hi.back x m y w h3
        refine ⟨t, u, ?_⟩
        dsimp only
        split
        · rw [upd_of_ne _ _ hx]; exact h
        · exact h
  | call hc hp =>
    refine ⟨fun x p m t u h3 h4 => ?_, fun x m t u h3 => ?_, fun x m y w h3 => ?_⟩
    · have := hi.idle x p m t u
      grind [upd_apply]
    · have := hi.clean x m t u
      grind [upd_apply]
    · have := hi.back x m y w
      grind [upd_apply, Register.Pc.op]
  | @c g _ _ hc =>
    cases hc
    case clean n target ty a w ha h1 h2 hp =>
      refine ⟨fun x p m t u h3 h4 => ?_, fun x m t u h3 => ?_, fun x m y w h3 => ?_⟩
      all_goals dsimp only at h3 ⊢
      all_goals
        by_cases hx : x = g
        · subst hx
          simp_all [Register.Pc.op]
        · simp only [upd_of_ne _ _ hx] at h3 ⊢
          first
            | exact hi.idle x p m t u h3 h4
            | exact hi.clean x m t u h3
            | exact hi.back x m y w h3
    all_goals
      refine ⟨fun x p m t u h3 h4 => ?_, fun x m t u h3 => ?_, fun x m y w h3 => ?_⟩
      · have := hi.idle x p m t u
        have := hi.idle g
        grind [upd_apply, Register.Pc.op]
      · have := hi.clean x m t u
        grind [upd_apply, Register.Pc.op]
      · have := hi.back x m y w
        have := hi.idle g
        grind [upd_apply, Register.Pc.op]

theorem link_run {h : List Ev} {s : State} (hr : (sys cfg factory).Run h s) : Link s := by
  refine hr.invariant (P := fun _ s => Link s) ?_ (fun h s a s' evs _ hi hs => link_step hi (step_rel hs))
  exact ⟨fun _ _ _ _ _ h => (nomatch h), fun _ _ _ _ h => (nomatch h), fun _ _ _ _ h => (nomatch h)⟩

theorem activeOf_concat (h : List Ev) (e : Ev) : activeOf (h ++ [e]) = active (e :: h.reverse) := by
  unfold activeOf
  rw [List.reverse_append, List.reverse_singleton, List.singleton_append]

/-- What a step does to the operations in progress. -/
inductive Moves (s s' : State) (evs : List Ev) : Prop
  | stay : (∀ x, cur s' x = cur s x) → (∀ e ∈ evs, begins e = none) → (∀ h, activeOf (h ++ evs) = activeOf h) →
      Moves s s' evs
  | begin (e : Ev) (g : Nat) (o : Spec.Op) : evs = [e] → begins e = some o → cur s g = none → cur s' g = some o →
      (∀ x, x ≠ g → cur s' x = cur s x) → (∀ h, activeOf (h ++ evs) = (g, o) :: activeOf h) → Moves s s' evs
  | done (g : Nat) : cur s' g = none → (∀ x, x ≠ g → cur s' x = cur s x) → (∀ e ∈ evs, begins e = none) →
      (∀ h, activeOf (h ++ evs) = (activeOf h).filter (·.1 ≠ g)) → Moves s s' evs
  | both (e e' : Ev) (g : Nat) (o : Spec.Op) : evs = [e, e'] → begins e = some o → begins e' = none →
      cur s g = none → (∀ x, cur s' x = cur s x) →
      (∀ h, activeOf (h ++ evs) = ((g, o) :: activeOf h).filter (·.1 ≠ g)) → Moves s s' evs

theorem cur_idle {s : State} {g : Nat} (hc : s.c g = .idle) (hp : s.r.pc g = .idle) : cur s g = none := by
  simp [cur, hc, hp, Register.Pc.op]

theorem moves {s s' : State} {evs : List Ev} (hl : Link s) (hs : Step cfg factory s s' evs) : Moves s s' evs := by
  cases hs with
  | @regStart g n b hc hp =>
    exact .begin _ g _ rfl rfl (cur_idle hc hp) (by simp [cur, hc, Register.Pc.op])
      (fun x hx => by simp [cur, upd_of_ne _ _ hx]) (fun h => by rw [activeOf_concat]; rfl)
  | @unregStart g n id ty hc hp =>
    exact .begin _ g _ rfl rfl (cur_idle hc hp) (by simp [cur, hc, Register.Pc.op])
      (fun x hx => by simp [cur, upd_of_ne _ _ hx]) (fun h => by rw [activeOf_concat]; rfl)
  | @callEmpty g n ty hc hp =>
    refine .both _ _ g _ rfl rfl rfl (cur_idle hc hp) (fun _ => rfl) (fun h => ?_)
    rw [show h ++ [Ev.call g n "" ty, .ret g .unknown] = (h ++ [.call g n "" ty]) ++ [.ret g .unknown] by simp,
      activeOf_concat, List.reverse_append]
    rfl
  | @call g n target ty p hc hp =>
    exact .begin _ g _ rfl rfl (cur_idle hc hp) (by simp [cur])
      (fun x hx => by simp [cur, upd_of_ne _ _ hx]) (fun h => by rw [activeOf_concat]; rfl)
  | @reg g a r e ha hg =>
    obtain ⟨h1, h2⟩ := reg_op ha hg
    rcases h2 with ⟨h2, h5, h6⟩ | ⟨h2, h5, res, rfl⟩
    · refine .stay (fun x => ?_) ?_ ?_
      · simp only [cur, h5, if_false]
        by_cases hx : x = g
        · subst hx; rw [h2]
        · rw [h1 x hx]
      · intro y hy
        obtain ⟨z, hz, rfl⟩ := List.mem_map.1 hy
        obtain ⟨i, rfl | ⟨a, rfl⟩⟩ := h6 z hz <;> rfl
      · clear hg
        induction e with
        | nil => simp
        | cons y e ih =>
          intro h
          rw [List.map_cons, ← List.singleton_append, ← List.append_assoc,
            ih (fun z hz => h6 z (List.mem_cons_of_mem _ hz)), activeOf_concat]
          obtain ⟨i, rfl | ⟨a, rfl⟩⟩ := h6 y (List.mem_cons_self) <;> rfl
    · refine .done g (by simp [cur, h2, Register.Pc.op]) (fun x hx => by simp [cur, h2, upd_of_ne _ _ hx, h1 x hx])
        ?_ (fun h => by rw [List.map_cons, List.map_nil, activeOf_concat]; rfl)
      intro y hy
      rw [List.map_cons, List.map_nil, List.mem_singleton] at hy
      subst hy; rfl
  | @c g _ _ hc =>
    have hid := hl.idle g
    cases hc
    case clean n target ty a w ha h1 h2 hp =>
      refine .stay (fun x => ?_) (by simp [begins]) (fun h => by rw [activeOf_concat]; rfl)
      by_cases hx : x = g
      · subst hx; simp [cur, ha]
      · simp [cur, upd_of_ne _ _ hx]
    case mapHit h _ =>
      exact .done g (by simp [cur, hid _ _ _ _ h, Register.Pc.op]) (fun x hx => by simp [cur, upd_of_ne _ _ hx])
        (by simp [begins]) (fun h => by rw [activeOf_concat]; rfl)
    case redisMiss h _ =>
      exact .done g (by simp [cur, hid _ _ _ _ h, Register.Pc.op]) (fun x hx => by simp [cur, upd_of_ne _ _ hx])
        (by simp [begins]) (fun h => by rw [activeOf_concat]; rfl)
    case checkHit h _ =>
      exact .done g (by simp [cur, hid _ _ _ _ h, Register.Pc.op]) (fun x hx => by simp [cur, upd_of_ne _ _ hx])
        (by simp [begins]) (fun h => by rw [activeOf_concat]; rfl)
    case panic h =>
      exact .done g (by simp [cur, hid _ _ _ _ h, Register.Pc.op]) (fun x hx => by simp [cur, upd_of_ne _ _ hx])
        (by simp [begins]) (fun h => by rw [activeOf_concat]; rfl)
    case noId h =>
      exact .done g (by simp [cur, hid _ _ _ _ h, Register.Pc.op]) (fun x hx => by simp [cur, upd_of_ne _ _ hx])
        (by simp [begins]) (fun h => by rw [activeOf_concat]; rfl)
    case forward h _ =>
      exact .done g (by simp [cur, hid _ _ _ _ h, Register.Pc.op]) (fun x hx => by simp [cur, upd_of_ne _ _ hx])
        (by simp [begins]) (fun h => by rw [activeOf_concat]; rfl)
    case found h _ =>
      exact .done g (by simp [cur, hid _ _ _ _ h, Register.Pc.op]) (fun x hx => by simp [cur, upd_of_ne _ _ hx])
        (by simp [begins]) (fun h => by rw [activeOf_concat]; rfl)
    case fail h hp =>
      have hp : s.r.pc g = .idle := by rcases hp with rfl | rfl | rfl <;> exact hid _ _ _ _ h (by simp)
      exact .done g (by simp [cur, hp, Register.Pc.op]) (fun x hx => by simp [cur, upd_of_ne _ _ hx])
        (by simp [begins]) (fun h => by rw [activeOf_concat]; rfl)
    all_goals
      refine .stay (fun x => ?_) (by simp) (fun h => by rw [List.append_nil])
      by_cases hx : x = g
      · subst hx; simp_all [cur]
      · simp [cur, upd_of_ne _ _ hx]

/-- The history knows which operation each goroutine is in. -/
theorem active_iff {h : List Ev} {s : State} (hr : (sys cfg factory).Run h s) (g : Nat) (o : Spec.Op) :
    (g, o) ∈ activeOf h ↔ cur s g = some o := by
  revert g o
  refine hr.invariant (P := fun h s => ∀ g o, (g, o) ∈ activeOf h ↔ cur s g = some o) ?_ ?_
  · intro g o; simp [activeOf, active, sys, init, cur, Register.init, Register.Pc.op]
  · intro h s a s' evs hr hi hs x o
    have h0 := hi x o
    cases moves (link_run hr) (step_rel hs) with
    | stay h1 _ h2 => rw [h2, h1]; exact h0
    | begin e g o' _ _ h1 h2 h3 h4 =>
      rw [h4, List.mem_cons, Prod.mk.injEq]
      by_cases hx : x = g
      · subst hx
        rw [h1] at h0
        simp [h0, h2, eq_comm]
      · rw [h3 x hx, ← h0]; simp [hx]
    | done g h1 h2 _ h3 =>
      rw [h3, List.mem_filter]
      by_cases hx : x = g
      · subst hx; simp [h1]
      · rw [h2 x hx, ← h0]; simp [hx]
    | both e e' g o' _ _ _ h1 h2 h3 =>
      rw [h3, List.mem_filter, List.mem_cons, Prod.mk.injEq, h2]
      by_cases hx : x = g
      · subst hx; simp [h1]
      · simp [hx, h0]

/-- While a goroutine creates or removes the actor, no other one does, and none calls it on its node. -/
def Ex (n : Nat) (id ty : String) (s : State) : Prop :=
  ∀ g g' o o', g ≠ g' → cur s g = some o → cur s g' = some o' → Changes n id o →
    ¬ Changes n id o' ∧ ¬ Meets n id ty o'

theorem apart_prefix {n : Nat} {id ty : String} {h evs : List Ev} (hx : Apart n id ty (h ++ evs)) :
    Apart n id ty h := fun pre e post o he => hx pre e (post ++ evs) o (by rw [he]; simp)

theorem owned_prefix {n : Nat} {id ty : String} {h evs : List Ev} (hx : Owned n id ty (h ++ evs)) :
    Owned n id ty h := fun e he => hx e (List.mem_append_left _ he)

theorem ex_run {n : Nat} {id ty : String} {h : List Ev} {s : State} (hr : (sys cfg factory).Run h s)
    (hx : Apart n id ty h) : Ex n id ty s := by
  revert hx
  refine hr.invariant (P := fun h s => Apart n id ty h → Ex n id ty s) ?_ ?_
  · intro _ g g' o o' _ h; simp [sys, init, cur, Register.init, Register.Pc.op] at h
  · intro h s a s' evs hr hi hs hx g g' o o' hne h1 h2 hch
    have he := hi (apart_prefix hx)
    have hact := active_iff hr
    -- a new operation is apart from the others
    have key : ∀ e rest, evs = e :: rest → ∀ o, begins e = some o → ∀ x o', cur s x = some o' →
        (Changes n id o → ¬ Changes n id o' ∧ ¬ Meets n id ty o') ∧ (Meets n id ty o → ¬ Changes n id o') :=
      fun e rest he o ho x o' hc => hx h e rest o (by rw [he]) ho (x, o') ((hact x o').2 hc)
    cases moves (link_run hr) (step_rel hs) with
    | stay e1 _ _ => exact he g g' o o' hne (by rw [← e1]; exact h1) (by rw [← e1]; exact h2) hch
    | both _ _ _ _ _ _ _ _ e1 _ => exact he g g' o o' hne (by rw [← e1]; exact h1) (by rw [← e1]; exact h2) hch
    | done x e1 e2 _ _ =>
      have a1 : g ≠ x := by rintro rfl; rw [e1] at h1; cases h1
      have a2 : g' ≠ x := by rintro rfl; rw [e1] at h2; cases h2
      exact he g g' o o' hne (by rw [← e2 g a1]; exact h1) (by rw [← e2 g' a2]; exact h2) hch
    | begin e x p hev hb e0 e1 e2 _ =>
      by_cases a1 : g = x
      · subst a1
        rw [e1] at h1; cases h1
        exact (key e [] hev _ hb g' o' (by rw [← e2 g' (fun h => hne h.symm)]; exact h2)).1 hch
      · rw [e2 g a1] at h1
        by_cases a2 : g' = x
        · subst a2
          rw [e1] at h2; cases h2
          have := key e [] hev _ hb g o h1
          exact ⟨fun hc => (this.1 hc).1 hch, fun hc => this.2 hc hch⟩
        · rw [e2 g' a2] at h2
          exact he g g' o o' hne h1 h2 hch

end Braid.Live
