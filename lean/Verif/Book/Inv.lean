import Verif.Book.Foot

/-
Invariant of the address book while calls overlap.
-/
namespace Braid.Book
open AddressBook Book.Spec
open AddressBook.Spec (Reg weightOf)

variable {cfg : Nat → NodeCfg} {own : String → Nat}

/-- The goroutine is past the checks of a call that writes the id. -/
def Pc.busy : Pc → String → Prop
  | .rPipe _ _ id _ _, x => id = x
  | .rIdmap _ _ id _, x => id = x
  | .uGet _ id _, x => id = x
  | .uPipe _ _ id _ _, x => id = x
  | .uIdmap _ id _, x => id = x
  | _, _ => False

/-- Everything or nothing of an id is there. -/
def Whole (f : Foot) : Prop := f.Off ∨ ∃ ty w, f = .full ty w

/-- What a command of `Clear` on node `n` removes. -/
def CmdOk (cfg : Nat → NodeCfg) (own : String → Nat) (F : String → Foot) (n : Nat) (c : Cmd) : Prop :=
  ∃ id, own id = n ∧ (c = .hdelId id ∨ c = .srem (F id).ty (addrOf cfg n (F id).ty id))

/-- What is there of the ids that a goroutine is working at. -/
def PcOk (cfg : Nat → NodeCfg) (own : String → Nat) (F : String → Foot) (W : World) : Pc → Prop
  | .rBook n _ id _ => own id = n
  | .rPipe n ty id w k => own id = n ∧ id ≠ "" ∧ ty ≠ "" ∧ k ≤ 5 ∧
      F id = ⟨ty, w, decide (1 ≤ k), decide (2 ≤ k), decide (4 ≤ k), decide (5 ≤ k), false⟩
  | .rIdmap n ty id w => own id = n ∧ id ≠ "" ∧ ty ≠ "" ∧ F id = ⟨ty, w, true, true, true, true, false⟩
  | .uGet n id w => own id = n ∧ ((F id).Off ∨ id ≠ "" ∧ ∃ ty, F id = .full ty w)
  | .uPipe n a id w k => own id = n ∧ a = addrOf cfg n a.actorTy id ∧ k ≤ 4 ∧
      F id = ⟨a.actorTy, w, decide (k < 1), decide (k < 2), decide (k < 3), decide (k < 4), true⟩
  | .uIdmap n id _ => own id = n ∧ (F id).Gone
  | .cGet n => ∀ id, own id = n → Whole (F id)
  | .cMem n tys cmds => (∀ id, own id = n → Whole (F id)) ∧
      (∀ id, own id = n → (F id).inIds = true → (F id).ty ∈ tys ∨
        .srem (F id).ty (addrOf cfg n (F id).ty id) ∈ cmds ∧ .hdelId id ∈ cmds) ∧
      ∀ c ∈ cmds, CmdOk cfg own F n c
  | .cPipe n cmds =>
      (∀ id, own id = n → (F id).inTys = true → .srem (F id).ty (addrOf cfg n (F id).ty id) ∈ cmds) ∧
      (∀ id, own id = n → (F id).inIds = true → .hdelId id ∈ cmds) ∧
      (.delLoad (cfg n).nodeID ∈ cmds ∨ W.redis.load (cfg n).nodeID = [] ∧
        ∀ id, own id = n → (F id).cntTy = false ∧ (F id).cntTot = false) ∧
      (.hdelNode (cfg n).nodeID ∈ cmds ∨ W.redis.nodes (cfg n).nodeID = none) ∧
      ∀ c ∈ cmds, CmdOk cfg own F n c ∨ c = .delLoad (cfg n).nodeID ∨ c = .hdelNode (cfg n).nodeID
  | _ => True

/-- A call in progress concerns the id. -/
def Concerns (own : String → Nat) (o : Op) (id : String) : Prop := Writes o id ∨ o = .clear (own id)

/-- The invariant; `F` says what there is of each id. -/
structure Inv (cfg : Nat → NodeCfg) (own : String → Nat) (F : String → Foot) (h : List Ev) (s : State) : Prop where
  impl : Impl cfg own F s.W
  act : ∀ g o, (g, o) ∈ activeOf h ↔ (s.pc g).op = some o
  excl : ∀ g g' o o' id, (s.pc g).op = some o → (s.pc g').op = some o' → Concerns own o id → Concerns own o' id → g = g'
  excln : ∀ g g' n, (s.pc g).op = some (.clear n) → (s.pc g').op = some (.clear n) → g = g'
  clr : ∀ g n, (s.pc g).op = some (.clear n) → Stopped h n
  live : ∀ g o id, (s.pc g).op = some o → Writes o id → ¬ Stopped h (own id)
  dirOn : ∀ r ∈ dir h, F r.id = .full r.ty r.weight ∧ own r.id = r.node ∧ r.id ≠ "" ∧ r.ty ≠ "" ∧ ¬ Stopped h r.node
  dirNodup : (dir h).Pairwise fun a b => a.id ≠ b.id
  dirFree : ∀ r ∈ dir h, ∀ g, ¬ (s.pc g).busy r.id
  off : ∀ id, (∀ r ∈ dir h, r.id ≠ id) → (∀ g, ¬ (s.pc g).busy id) → ¬ Stopped h (own id) → (F id).Off
  pcs : ∀ g, PcOk cfg own F s.W (s.pc g)
  done : ∀ n, Stopped h n → (∀ g, (s.pc g).op ≠ some (.clear n)) → (∀ id, own id = n → (F id).Gone) ∧
    s.W.redis.load (cfg n).nodeID = [] ∧ s.W.redis.nodes (cfg n).nodeID = none

/-! ### Histories -/

theorem activeOf_begin (h : List Ev) (g : Nat) (o : Op) : activeOf (h ++ [.begin g o]) = (g, o) :: activeOf h := by
  simp [activeOf, active]

theorem activeOf_finish (h : List Ev) (g : Nat) (o : Op) (r : Res) :
    activeOf (h ++ [.finish g o r]) = (activeOf h).filter (·.1 ≠ g) := by
  simp [activeOf, active]

theorem dir_concat (h : List Ev) (e : Ev) : dir (h ++ [e]) = dirStep (dir h) e := by simp [dir]

theorem stopped_begin {h : List Ev} {g n : Nat} {o : Op} :
    Stopped (h ++ [.begin g o]) n ↔ Stopped h n ∨ o = .clear n := by
  unfold Stopped
  constructor
  · rintro ⟨g', hg⟩
    simp only [List.mem_append, List.mem_singleton, Ev.begin.injEq] at hg
    rcases hg with hg | ⟨-, hg⟩
    · exact .inl ⟨g', hg⟩
    · exact .inr hg.symm
  · rintro (⟨g', hg⟩ | rfl)
    · exact ⟨g', by simp [hg]⟩
    · exact ⟨g, by simp⟩

theorem stopped_finish {h : List Ev} {g n : Nat} {o : Op} {r : Res} :
    Stopped (h ++ [.finish g o r]) n ↔ Stopped h n := by
  unfold Stopped
  simp

theorem busy_op {p : Pc} {id : String} (h : p.busy id) : ∃ o, p.op = some o ∧ Writes o id := by
  cases p <;> simp only [Pc.busy] at h
  all_goals subst h
  all_goals first
    | exact ⟨_, rfl, .inl ⟨_, _, _, rfl⟩⟩
    | exact ⟨_, rfl, .inr ⟨_, _, rfl⟩⟩

theorem writes_inj {o : Op} {id id' : String} (h : Writes o id) (h' : Writes o id') : id = id' := by
  rcases h with ⟨_, _, _, rfl⟩ | ⟨_, _, rfl⟩ <;> rcases h' with ⟨_, _, _, h⟩ | ⟨_, _, h⟩ <;> cases h <;> rfl

theorem not_writes_clear {n : Nat} {id : String} : ¬ Writes (.clear n) id := by
  rintro (⟨_, _, _, h⟩ | ⟨_, _, h⟩) <;> cases h

/-- What a goroutine is working at stays the same. -/
theorem pcOk_frame {F F' : String → Foot} {W W' : World} {p : Pc} (hp : PcOk cfg own F W p)
    (hF : ∀ o id, p.op = some o → Concerns own o id → F' id = F id)
    (hW : ∀ n, p.op = some (.clear n) → W'.redis.load (cfg n).nodeID = W.redis.load (cfg n).nodeID ∧
      W'.redis.nodes (cfg n).nodeID = W.redis.nodes (cfg n).nodeID) : PcOk cfg own F' W' p := by
  have hw : ∀ o id, p.op = some o → Writes o id → F' id = F id := fun o id h1 h2 => hF o id h1 (.inl h2)
  have hc : ∀ n, p.op = some (.clear n) → ∀ id, own id = n → F' id = F id := by
    intro n h1 id h2
    exact hF _ id h1 (.inr (by rw [h2]))
  cases p with
  | idle => trivial
  | rBook n ty id w => exact hp
  | rPipe n ty id w k => simpa only [PcOk, hw _ id rfl (.inl ⟨_, _, _, rfl⟩)] using hp
  | rIdmap n ty id w => simpa only [PcOk, hw _ id rfl (.inl ⟨_, _, _, rfl⟩)] using hp
  | uGet n id w => simpa only [PcOk, hw _ id rfl (.inr ⟨_, _, rfl⟩)] using hp
  | uPipe n a id w k => simpa only [PcOk, hw _ id rfl (.inr ⟨_, _, rfl⟩)] using hp
  | uIdmap n id w => simpa only [PcOk, hw _ id rfl (.inr ⟨_, _, rfl⟩)] using hp
  | gBook n id => trivial
  | gGet n id => trivial
  | lGet ty => trivial
  | cGet n =>
    intro id hid
    rw [hc n rfl id hid]
    exact hp id hid
  | cMem n tys cmds =>
    obtain ⟨h1, h2, h3⟩ := hp
    refine ⟨fun id hid => ?_, fun id hid => ?_, fun c hcm => ?_⟩
    · rw [hc n rfl id hid]; exact h1 id hid
    · rw [hc n rfl id hid]; exact h2 id hid
    · obtain ⟨id, hid, hh⟩ := h3 c hcm
      exact ⟨id, hid, by rw [hc n rfl id hid]; exact hh⟩
  | cPipe n cmds =>
    obtain ⟨h1, h2, h3, h4, h5⟩ := hp
    obtain ⟨w1, w2⟩ := hW n rfl
    refine ⟨fun id hid => ?_, fun id hid => ?_, ?_, ?_, fun c hcm => ?_⟩
    · rw [hc n rfl id hid]; exact h1 id hid
    · rw [hc n rfl id hid]; exact h2 id hid
    · rcases h3 with h3 | ⟨h3, h3'⟩
      · exact .inl h3
      · refine .inr ⟨by rw [w1]; exact h3, fun id hid => ?_⟩
        rw [hc n rfl id hid]; exact h3' id hid
    · rw [w2]; exact h4
    · rcases h5 c hcm with ⟨id, hid, hh⟩ | hh
      · exact .inl ⟨id, hid, by rw [hc n rfl id hid]; exact hh⟩
      · exact .inr hh

/-! ### Steps -/

theorem upd_op {pc : Nat → Pc} {g : Nat} {p : Pc} (h : p.op = (pc g).op) (g' : Nat) :
    (upd pc g p g').op = (pc g').op := by
  rw [upd_apply]
  split
  · rename_i he; rw [he, h]
  · rfl

/-- A step within a call that writes `id`. -/
theorem inv_write {F : String → Foot} {h : List Ev} {s : State} (hi : Inv cfg own F h s) {g : Nat} {o : Op} {id : String}
    (ho : (s.pc g).op = some o) (hw : Writes o id) (hnd : ∀ r ∈ dir h, r.id ≠ id) {p : Pc} (hp : p.op = some o)
    (hb : p.busy id) {f : Foot} {W : World} (him : Impl cfg own (upd F id f) W)
    (hok : PcOk cfg own (upd F id f) W p)
    (hW : ∀ n, n ≠ own id → W.redis.load (cfg n).nodeID = s.W.redis.load (cfg n).nodeID ∧
      W.redis.nodes (cfg n).nodeID = s.W.redis.nodes (cfg n).nodeID) :
    Inv cfg own (upd F id f) h ⟨W, upd s.pc g p⟩ := by
  have hop : ∀ g', (upd s.pc g p g').op = (s.pc g').op := upd_op (by rw [hp, ho])
  have hbusy : ∀ g' x, (upd s.pc g p g').busy x → x = id ∨ (s.pc g').busy x := by
    intro g' x hx
    rw [upd_apply] at hx
    split at hx
    · obtain ⟨o', h1, h2⟩ := busy_op hx
      rw [hp] at h1
      cases h1
      exact .inl (writes_inj h2 hw)
    · exact .inr hx
  refine ⟨him, fun g' o' => by simp only [hop]; exact hi.act g' o', ?_, ?_, ?_, ?_, ?_, hi.dirNodup, ?_, ?_, ?_, ?_⟩
  · simp only [hop]; exact hi.excl
  · simp only [hop]; exact hi.excln
  · simp only [hop]; exact hi.clr
  · simp only [hop]; exact hi.live
  · intro r hr
    rw [upd_of_ne _ _ (hnd r hr)]
    exact hi.dirOn r hr
  · intro r hr g' hx
    rcases hbusy g' _ hx with h | h
    · exact hnd r hr h
    · exact hi.dirFree r hr g' h
  · intro x h1 h2 h3
    have hx : x ≠ id := fun he => h2 g (by rw [he]; simpa using hb)
    rw [upd_of_ne _ _ hx]
    refine hi.off x h1 (fun g' hg => ?_) h3
    by_cases he : g' = g
    · subst he
      obtain ⟨o', h4, h5⟩ := busy_op hg
      rw [ho] at h4
      cases h4
      exact hx (writes_inj h5 hw)
    · exact h2 g' (by simpa [upd_of_ne _ _ he] using hg)
  · intro g'
    dsimp only
    by_cases he : g' = g
    · subst he; rw [upd_same]; exact hok
    · rw [upd_of_ne _ _ he]
      refine pcOk_frame (hi.pcs g') (fun o' x h1 h2 => ?_) (fun n hn => hW n fun hc => ?_)
      · refine upd_of_ne _ _ fun hx => he ?_
        subst hx
        exact hi.excl _ _ _ _ _ h1 ho h2 (.inl hw)
      · subst hc
        exact he (hi.excl _ _ _ _ id hn ho (.inr rfl) (.inl hw))
  · intro n hn hg
    have hne : n ≠ own id := fun hc => hi.live g o id ho hw (hc ▸ hn)
    obtain ⟨h1, h2, h3⟩ := hi.done n hn fun g' => by rw [← hop]; exact hg g'
    refine ⟨fun x hx => ?_, by rw [(hW n hne).1]; exact h2, by rw [(hW n hne).2]; exact h3⟩
    rw [upd_of_ne _ _ fun hc => hne (by rw [← hx, hc])]
    exact h1 x hx

/-- A call that writes `id` ends; afterwards the id is registered or there is nothing of it. -/
theorem inv_end {F : String → Foot} {h : List Ev} {s : State} (hi : Inv cfg own F h s) {g : Nat} {o : Op} {id : String}
    (ho : (s.pc g).op = some o) (hw : Writes o id) {r : Res} {f : Foot} {W : World}
    (him : Impl cfg own (upd F id f) W)
    (hW : ∀ n, n ≠ own id → W.redis.load (cfg n).nodeID = s.W.redis.load (cfg n).nodeID ∧
      W.redis.nodes (cfg n).nodeID = s.W.redis.nodes (cfg n).nodeID)
    (hnd : (∀ r ∈ dir h, r.id ≠ id) ∨ f = F id)
    (hcase : dir (h ++ [.finish g o r]) = dir h ∧ (f.Off ∨ f = F id ∧ ∀ x, ¬ (s.pc g).busy x) ∨
      ∃ n ty w, dir (h ++ [.finish g o r]) = dir h ++ [⟨id, ty, n, w⟩] ∧ f = .full ty w ∧ own id = n ∧ id ≠ "" ∧ ty ≠ "" ∧
        ∀ r ∈ dir h, r.id ≠ id) :
    Inv cfg own (upd F id f) (h ++ [.finish g o r]) ⟨W, upd s.pc g .idle⟩ := by
  have hop : ∀ g' o', (upd s.pc g .idle g').op = some o' → g' ≠ g ∧ (s.pc g').op = some o' := by
    intro g' o' h1
    by_cases he : g' = g
    · subst he; simp [Pc.op] at h1
    · rw [upd_of_ne _ _ he] at h1; exact ⟨he, h1⟩
  have hbusy : ∀ g' x, (upd s.pc g .idle g').busy x → (s.pc g').busy x := by
    intro g' x hx
    by_cases he : g' = g
    · subst he; simp [Pc.busy] at hx
    · rw [upd_of_ne _ _ he] at hx; exact hx
  have hidfree : ∀ g', ¬ (upd s.pc g .idle g').busy id := by
    intro g' hg
    by_cases he : g' = g
    · subst he; simp [Pc.busy] at hg
    · rw [upd_of_ne _ _ he] at hg
      obtain ⟨o', h1, h2⟩ := busy_op hg
      exact he (hi.excl _ _ _ _ _ h1 ho (.inl h2) (.inl hw))
  have hFd : ∀ r ∈ dir h, upd F id f r.id = F r.id := by
    intro r hr
    rcases hnd with hnd | hnd
    · exact upd_of_ne _ _ (hnd r hr)
    · rw [hnd, upd_self]
  refine ⟨him, ?_, ?_, ?_, ?_, ?_, ?_, ?_, ?_, ?_, ?_, ?_⟩
  · intro g' o'
    rw [activeOf_finish, List.mem_filter, hi.act]
    constructor
    · rintro ⟨h1, h2⟩
      dsimp only
      rw [upd_of_ne _ _ (by simpa using h2)]
      exact h1
    · intro h1
      obtain ⟨h2, h3⟩ := hop _ _ h1
      exact ⟨h3, by simpa using h2⟩
  · intro g1 g2 o1 o2 x h1 h2
    exact hi.excl g1 g2 o1 o2 x (hop _ _ h1).2 (hop _ _ h2).2
  · intro g1 g2 n h1 h2
    exact hi.excln g1 g2 n (hop _ _ h1).2 (hop _ _ h2).2
  · intro g' n h1
    rw [stopped_finish]; exact hi.clr g' n (hop _ _ h1).2
  · intro g' o' x h1
    rw [stopped_finish]; exact hi.live g' o' x (hop _ _ h1).2
  · intro r' hr'
    rw [stopped_finish]
    rcases hcase with ⟨hd, -⟩ | ⟨n, ty, w, hd, rfl, hn, h1, h2, -⟩
    · rw [hd] at hr'; rw [hFd r' hr']; exact hi.dirOn r' hr'
    · rw [hd, List.mem_append, List.mem_singleton] at hr'
      rcases hr' with hr' | rfl
      · rw [hFd r' hr']; exact hi.dirOn r' hr'
      · exact ⟨by simp, hn, h1, h2, hn ▸ hi.live g o id ho hw⟩
  · rcases hcase with ⟨hd, -⟩ | ⟨n, ty, w, hd, -, -, -, -, hn⟩
    · rw [hd]; exact hi.dirNodup
    · rw [hd, List.pairwise_append]
      refine ⟨hi.dirNodup, by simp, fun a ha b hb => ?_⟩
      rw [List.mem_singleton.1 hb]
      exact hn a ha
  · intro r' hr' g' hg
    rcases hcase with ⟨hd, -⟩ | ⟨n, ty, w, hd, -, -, -, -, hn⟩
    · rw [hd] at hr'; exact hi.dirFree r' hr' g' (hbusy _ _ hg)
    · rw [hd, List.mem_append, List.mem_singleton] at hr'
      rcases hr' with hr' | rfl
      · exact hi.dirFree r' hr' g' (hbusy _ _ hg)
      · exact hidfree g' hg
  · intro x h1 h2 h3
    rw [stopped_finish] at h3
    have hdir : ∀ r' ∈ dir h, r'.id ≠ x := by
      intro r' hr'
      refine h1 r' ?_
      rcases hcase with ⟨hd, -⟩ | ⟨n, ty, w, hd, -⟩
      · rw [hd]; exact hr'
      · rw [hd]; exact List.mem_append_left _ hr'
    by_cases hx : x = id
    · subst hx
      rw [upd_same]
      rcases hcase with ⟨hd, hf | ⟨hf, hb⟩⟩ | ⟨n, ty, w, hd, -⟩
      · exact hf
      · rw [hf]
        refine hi.off x hdir (fun g' hg => ?_) h3
        by_cases he : g' = g
        · subst he; exact hb x hg
        · exact h2 g' (by dsimp only; rw [upd_of_ne _ _ he]; exact hg)
      · exact absurd rfl (h1 ⟨x, ty, n, w⟩ (by rw [hd]; simp))
    · rw [upd_of_ne _ _ hx]
      refine hi.off x hdir (fun g' hg => ?_) h3
      by_cases he : g' = g
      · subst he
        obtain ⟨o', h4, h5⟩ := busy_op hg
        rw [ho] at h4
        cases h4
        exact hx (writes_inj h5 hw)
      · exact h2 g' (by dsimp only; rw [upd_of_ne _ _ he]; exact hg)
  · intro g'
    dsimp only
    by_cases he : g' = g
    · subst he; rw [upd_same]; trivial
    · rw [upd_of_ne _ _ he]
      refine pcOk_frame (hi.pcs g') (fun o' x h1 h2 => ?_) (fun n hn => hW n fun hc => ?_)
      · refine upd_of_ne _ _ fun hx => he ?_
        subst hx
        exact hi.excl _ _ _ _ _ h1 ho h2 (.inl hw)
      · subst hc
        exact he (hi.excl _ _ _ _ id hn ho (.inr rfl) (.inl hw))
  · intro n hn hg
    rw [stopped_finish] at hn
    have hne : n ≠ own id := fun hc => hi.live g o id ho hw (hc ▸ hn)
    obtain ⟨h1, h2, h3⟩ := hi.done n hn fun g' => by
      by_cases he : g' = g
      · subst he; rw [ho]
        intro hc; cases hc
        exact not_writes_clear hw
      · have := hg g'
        dsimp only at this
        rwa [upd_of_ne _ _ he] at this
    refine ⟨fun x hx => ?_, by rw [(hW n hne).1]; exact h2, by rw [(hW n hne).2]; exact h3⟩
    rw [upd_of_ne _ _ fun hc => hne (by rw [← hx, hc])]
    exact h1 x hx

/-- A step that changes neither what there is nor the call in progress, and no pc that matters. -/
theorem inv_stay {F : String → Foot} {h : List Ev} {s : State} (hi : Inv cfg own F h s) {g : Nat} {p : Pc}
    (hp : p.op = (s.pc g).op) (hb : ∀ x, p.busy x ↔ (s.pc g).busy x) (hok : PcOk cfg own F s.W p) :
    Inv cfg own F h { s with pc := upd s.pc g p } := by
  have hop : ∀ g', (upd s.pc g p g').op = (s.pc g').op := upd_op hp
  have hbusy : ∀ g' x, (upd s.pc g p g').busy x ↔ (s.pc g').busy x := by
    intro g' x
    rw [upd_apply]
    split
    · rename_i he; subst he; exact hb x
    · rfl
  refine ⟨hi.impl, fun g' o' => by simp only [hop]; exact hi.act g' o', ?_, ?_, ?_, ?_, hi.dirOn, hi.dirNodup, ?_, ?_, ?_, ?_⟩
  · simp only [hop]; exact hi.excl
  · simp only [hop]; exact hi.excln
  · simp only [hop]; exact hi.clr
  · simp only [hop]; exact hi.live
  · simp only [hbusy]; exact hi.dirFree
  · simp only [hbusy]; exact hi.off
  · intro g'
    dsimp only
    by_cases he : g' = g
    · subst he; rw [upd_same]; exact hok
    · rw [upd_of_ne _ _ he]; exact hi.pcs g'
  · simp only [hop]; exact hi.done

/-- A lookup ends. -/
theorem inv_looked {F : String → Foot} {h : List Ev} {s : State} (hi : Inv cfg own F h s) {g : Nat} {o : Op} {r : Res}
    (ho : (s.pc g).op = some o) (hl : (∃ n id, o = .get n id) ∨ ∃ ty, o = .list ty) :
    Inv cfg own F (h ++ [.finish g o r]) { s with pc := upd s.pc g .idle } := by
  have hnw : ∀ x, ¬ Concerns own o x := by
    rintro x (hw | hw)
    · rcases hl with ⟨_, _, rfl⟩ | ⟨_, rfl⟩ <;> rcases hw with ⟨_, _, _, h⟩ | ⟨_, _, h⟩ <;> cases h
    · rcases hl with ⟨_, _, rfl⟩ | ⟨_, rfl⟩ <;> cases hw
  have hnc : ∀ n, o ≠ .clear n := by
    rintro n rfl
    rcases hl with ⟨_, _, h⟩ | ⟨_, h⟩ <;> cases h
  have hdir : dir (h ++ [.finish g o r]) = dir h := by
    rw [dir_concat]
    rcases hl with ⟨_, _, rfl⟩ | ⟨_, rfl⟩ <;> rfl
  have hop : ∀ g' o', (upd s.pc g .idle g').op = some o' → g' ≠ g ∧ (s.pc g').op = some o' := by
    intro g' o' h1
    by_cases he : g' = g
    · subst he; simp [Pc.op] at h1
    · rw [upd_of_ne _ _ he] at h1; exact ⟨he, h1⟩
  have hbusy : ∀ g' x, (upd s.pc g .idle g').busy x ↔ (s.pc g').busy x := by
    intro g' x
    by_cases he : g' = g
    · subst he
      simp only [upd_same, Pc.busy, false_iff]
      intro hb
      obtain ⟨o', h1, h2⟩ := busy_op hb
      rw [ho] at h1; cases h1
      exact hnw x (.inl h2)
    · rw [upd_of_ne _ _ he]
  refine ⟨hi.impl, ?_, ?_, ?_, ?_, ?_, ?_, ?_, ?_, ?_, ?_, ?_⟩
  · intro g' o'
    rw [activeOf_finish, List.mem_filter, hi.act]
    constructor
    · rintro ⟨h1, h2⟩
      dsimp only
      rw [upd_of_ne _ _ (by simpa using h2)]
      exact h1
    · intro h1
      obtain ⟨h2, h3⟩ := hop _ _ h1
      exact ⟨h3, by simpa using h2⟩
  · intro g1 g2 o1 o2 x h1 h2
    exact hi.excl g1 g2 o1 o2 x (hop _ _ h1).2 (hop _ _ h2).2
  · intro g1 g2 n h1 h2
    exact hi.excln g1 g2 n (hop _ _ h1).2 (hop _ _ h2).2
  · intro g' n h1
    rw [stopped_finish]; exact hi.clr g' n (hop _ _ h1).2
  · intro g' o' x h1
    rw [stopped_finish]; exact hi.live g' o' x (hop _ _ h1).2
  · intro r' hr'
    rw [hdir] at hr'
    rw [stopped_finish]
    exact hi.dirOn r' hr'
  · rw [hdir]; exact hi.dirNodup
  · simp only [hbusy, hdir]; exact hi.dirFree
  · intro x h1 h2 h3
    rw [hdir] at h1
    rw [stopped_finish] at h3
    simp only [hbusy] at h2
    exact hi.off x h1 h2 h3
  · intro g'
    dsimp only
    by_cases he : g' = g
    · subst he; rw [upd_same]; trivial
    · rw [upd_of_ne _ _ he]; exact hi.pcs g'
  · intro n hn hg
    rw [stopped_finish] at hn
    refine hi.done n hn fun g' hc => ?_
    by_cases he : g' = g
    · subst he
      rw [ho] at hc; cases hc
      exact hnc n rfl
    · exact hg g' (by dsimp only; rw [upd_of_ne _ _ he]; exact hc)

/-- A call that follows the rules begins. -/
theorem inv_begin {F : String → Foot} {h : List Ev} {s : State} (hi : Inv cfg own F h s) {g : Nat} {o : Op}
    (hpc : s.pc g = .idle) (hl : Legal own h o) :
    Inv cfg own F (h ++ [.begin g o]) { s with pc := upd s.pc g (entry o) } := by
  have hent : (entry o).op = some o := by cases o <;> rfl
  have hop : ∀ g' o', (upd s.pc g (entry o) g').op = some o' → g' = g ∧ o' = o ∨ g' ≠ g ∧ (s.pc g').op = some o' := by
    intro g' o' h1
    by_cases he : g' = g
    · subst he; rw [upd_same, hent] at h1; cases h1; exact .inl ⟨rfl, rfl⟩
    · rw [upd_of_ne _ _ he] at h1; exact .inr ⟨he, h1⟩
  -- nothing in progress concerns the same id
  have hfree : ∀ g' o' x, (s.pc g').op = some o' → Concerns own o' x → ¬ Concerns own o x := by
    intro g' o' x h1 h2 h3
    have ha := (hi.act g' o').2 h1
    have hwn : Writes o' x → WritesNode o' (own x) := by
      intro hw
      have hp := hi.pcs g'
      cases hpg : s.pc g' <;> rw [hpg] at h1 hp <;> simp only [Pc.op, Option.some.injEq, reduceCtorEq] at h1 <;> subst h1
      all_goals first
        | (rcases hw with ⟨_, _, _, hw⟩ | ⟨_, _, hw⟩ <;> cases hw <;> done)
        | skip
      all_goals (rcases hw with ⟨_, _, _, hw⟩ | ⟨_, _, hw⟩ <;> cases hw)
      · exact .inl ⟨_, _, _, by rw [show own x = _ from hp]⟩
      · exact .inl ⟨_, _, _, by rw [hp.1]⟩
      · exact .inl ⟨_, _, _, by rw [hp.1]⟩
      · exact .inr (.inl ⟨_, _, by rw [hp.1]⟩)
      · exact .inr (.inl ⟨_, _, by rw [hp.1]⟩)
      · exact .inr (.inl ⟨_, _, by rw [hp.1]⟩)
    rcases h3 with h3 | h3
    · rcases h2 with h2 | h2
      · rcases h3 with ⟨_, _, _, rfl⟩ | ⟨_, _, rfl⟩
        · exact hl.2.2 _ ha h2
        · exact hl.2.2.1 _ ha h2
      · have hst := hi.clr g' (own x) (by rw [h1, h2])
        rcases h3 with ⟨_, _, _, rfl⟩ | ⟨_, _, rfl⟩
        · exact hl.2.1 (hl.1 ▸ hst)
        · exact hl.2.1 (hl.1 ▸ hst)
    · subst h3
      rcases h2 with h2 | h2
      · exact hl.2 _ ha (hwn h2)
      · exact hl.2 _ ha (.inr (.inr h2))
  have hstop : ∀ n, Stopped (h ++ [.begin g o]) n ↔ Stopped h n ∨ o = .clear n := fun n => stopped_begin
  have hidle : ∀ x, ¬ (s.pc g).busy x := by intro x; rw [hpc]; exact id
  refine ⟨hi.impl, ?_, ?_, ?_, ?_, ?_, ?_, ?_, ?_, ?_, ?_, ?_⟩
  · intro g' o'
    rw [activeOf_begin, List.mem_cons, hi.act]
    constructor
    · rintro (h1 | h1)
      · cases h1; dsimp only; rw [upd_same, hent]
      · have : g' ≠ g := fun he => by rw [he, hpc] at h1; cases h1
        dsimp only
        rw [upd_of_ne _ _ this]; exact h1
    · intro h1
      rcases hop _ _ h1 with ⟨rfl, rfl⟩ | ⟨-, h1⟩
      · exact .inl rfl
      · exact .inr h1
  · intro g1 g2 o1 o2 x h1 h2 h3 h4
    rcases hop _ _ h1 with ⟨e1, e2⟩ | ⟨-, h5⟩ <;> rcases hop _ _ h2 with ⟨e3, e4⟩ | ⟨-, h6⟩
    · rw [e1, e3]
    · exact absurd (e2 ▸ h3) (hfree _ _ _ h6 h4)
    · exact absurd (e4 ▸ h4) (hfree _ _ _ h5 h3)
    · exact hi.excl _ _ _ _ _ h5 h6 h3 h4
  · intro g1 g2 n h1 h2
    rcases hop _ _ h1 with ⟨e1, e2⟩ | ⟨-, h5⟩ <;> rcases hop _ _ h2 with ⟨e3, e4⟩ | ⟨-, h6⟩
    · rw [e1, e3]
    · subst e2; exact absurd (hi.clr _ _ h6) hl.1
    · subst e4; exact absurd (hi.clr _ _ h5) hl.1
    · exact hi.excln _ _ _ h5 h6
  · intro g' n h1
    rw [hstop]
    rcases hop _ _ h1 with ⟨-, rfl⟩ | ⟨-, h1⟩
    · exact .inr rfl
    · exact .inl (hi.clr _ _ h1)
  · intro g' o' x h1 h2
    rw [hstop]
    rcases hop _ _ h1 with ⟨-, rfl⟩ | ⟨-, h1⟩
    · rintro (h3 | rfl)
      · rcases h2 with ⟨_, _, _, rfl⟩ | ⟨_, _, rfl⟩
        · exact hl.2.1 (hl.1 ▸ h3)
        · exact hl.2.1 (hl.1 ▸ h3)
      · exact not_writes_clear h2
    · rintro (h3 | h3)
      · exact hi.live _ _ _ h1 h2 h3
      · exact hfree _ _ x h1 (.inl h2) (.inr h3)
  · intro r hr
    rw [dir_concat] at hr
    rw [hstop]
    have hsub : r ∈ dir h := by
      cases o <;> simp only [dirStep] at hr
      all_goals first
        | exact hr
        | exact (List.mem_filter.1 hr).1
    obtain ⟨h1, h2, h3, h4, h5⟩ := hi.dirOn r hsub
    refine ⟨h1, h2, h3, h4, ?_⟩
    rintro (h6 | rfl)
    · exact h5 h6
    · simp only [dirStep] at hr
      simpa using (List.mem_filter.1 hr).2
  · rw [dir_concat]
    cases o <;> simp only [dirStep]
    all_goals first
      | exact hi.dirNodup
      | exact hi.dirNodup.filter _
  · intro r hr g' hb
    rw [dir_concat] at hr
    have hsub : r ∈ dir h := by
      cases o <;> simp only [dirStep] at hr
      all_goals first
        | exact hr
        | exact (List.mem_filter.1 hr).1
    by_cases he : g' = g
    · subst he
      dsimp only at hb
      rw [upd_same] at hb
      cases o <;> simp only [entry, Pc.busy] at hb
      subst hb
      simp only [dirStep] at hr
      simpa using (List.mem_filter.1 hr).2
    · dsimp only at hb
      rw [upd_of_ne _ _ he] at hb
      exact hi.dirFree r hsub g' hb
  · intro x h1 h2 h3
    rw [hstop] at h3
    refine hi.off x (fun r hr => ?_) (fun g' hg => ?_) fun h => h3 (.inl h)
    · rw [dir_concat] at h1
      cases o with
      | unreg n id w =>
        intro hx
        have hne : x ≠ id := fun hc => h2 g (by dsimp only; rw [upd_same]; exact hc.symm)
        exact h1 r (by simp only [dirStep]; rw [List.mem_filter]; exact ⟨hr, by simpa [hx] using hne⟩) hx
      | clear n =>
        intro hx
        have hon := hi.dirOn r hr
        refine h1 r (by simp only [dirStep]; rw [List.mem_filter]; refine ⟨hr, ?_⟩; simp only [ne_eq, decide_not,
          Bool.not_eq_eq_eq_not, Bool.not_true, decide_eq_false_iff_not]; intro hc; exact h3 (.inr (by rw [← hx, hon.2.1, hc]))) hx
      | reg => exact h1 r hr
      | get => exact h1 r hr
      | list => exact h1 r hr
    · have he : g' ≠ g := fun he => hidle x (he ▸ hg)
      exact h2 g' (by dsimp only; rw [upd_of_ne _ _ he]; exact hg)
  · intro g'
    dsimp only
    by_cases he : g' = g
    · subst he
      rw [upd_same]
      cases o with
      | reg n ty id w => exact hl.1
      | unreg n id w =>
        refine ⟨hl.1, ?_⟩
        by_cases hr : ∃ r ∈ dir h, r.id = id
        · obtain ⟨r, hr, rfl⟩ := hr
          obtain ⟨h1, h2, h3, h4, h5⟩ := hi.dirOn r hr
          have := hl.2.2.2 r hr rfl
          exact .inr ⟨h3, r.ty, this ▸ h1⟩
        · refine .inl (hi.off id (fun r hr' hid => hr ⟨r, hr', hid⟩) (fun g2 hg => ?_) (hl.1 ▸ hl.2.1))
          obtain ⟨o', h1, h2⟩ := busy_op hg
          exact hfree g2 o' id h1 (.inl h2) (.inl (.inr ⟨_, _, rfl⟩))
      | get => trivial
      | list => trivial
      | clear n =>
        intro id hid
        by_cases hr : ∃ r ∈ dir h, r.id = id
        · obtain ⟨r, hr, rfl⟩ := hr
          exact .inr ⟨_, _, (hi.dirOn r hr).1⟩
        · refine .inl (hi.off id (fun r hr' hid => hr ⟨r, hr', hid⟩) (fun g2 hg => ?_) (hid ▸ hl.1))
          obtain ⟨o', h1, h2⟩ := busy_op hg
          exact hfree g2 o' id h1 (.inl h2) (.inr (by rw [hid]))
    · rw [upd_of_ne _ _ he]; exact hi.pcs g'
  · intro n hn hg
    rw [hstop] at hn
    have hnc : o ≠ .clear n := by
      rintro rfl
      exact hg g (by dsimp only; rw [upd_same]; rfl)
    refine hi.done n (hn.resolve_right hnc) fun g' hc => ?_
    have he : g' ≠ g := fun he => by rw [he, hpc] at hc; cases hc
    exact hg g' (by dsimp only; rw [upd_of_ne _ _ he]; exact hc)

/-- `Clear` executes a command. -/
theorem inv_clear {F F' : String → Foot} {h : List Ev} {s : State} (hi : Inv cfg own F h s) {g n : Nat} {p : Pc}
    (ho : (s.pc g).op = some (.clear n)) (hp : p.op = some (.clear n)) {W : World}
    (hF : ∀ x, own x ≠ n → F' x = F x) (him : Impl cfg own F' W) (hok : PcOk cfg own F' W p)
    (hW : ∀ m, m ≠ n → W.redis.load (cfg m).nodeID = s.W.redis.load (cfg m).nodeID ∧
      W.redis.nodes (cfg m).nodeID = s.W.redis.nodes (cfg m).nodeID) :
    Inv cfg own F' h ⟨W, upd s.pc g p⟩ := by
  have hop : ∀ g', (upd s.pc g p g').op = (s.pc g').op := upd_op (by rw [hp, ho])
  have hst := hi.clr g n ho
  have hbusy : ∀ g' x, (upd s.pc g p g').busy x ↔ (s.pc g').busy x := by
    intro g' x
    rw [upd_apply]
    split
    · rename_i he; subst he
      constructor
      · intro hb
        obtain ⟨o', h1, h2⟩ := busy_op hb
        rw [hp] at h1; cases h1
        exact absurd h2 not_writes_clear
      · intro hb
        obtain ⟨o', h1, h2⟩ := busy_op hb
        rw [ho] at h1; cases h1
        exact absurd h2 not_writes_clear
    · rfl
  refine ⟨him, fun g' o' => by simp only [hop]; exact hi.act g' o', ?_, ?_, ?_, ?_, ?_, hi.dirNodup, ?_, ?_, ?_, ?_⟩
  · simp only [hop]; exact hi.excl
  · simp only [hop]; exact hi.excln
  · simp only [hop]; exact hi.clr
  · simp only [hop]; exact hi.live
  · intro r hr
    obtain ⟨h1, h2, h3⟩ := hi.dirOn r hr
    rw [hF]
    · exact ⟨h1, h2, h3⟩
    · intro hc
      exact h3.2.2 (by rw [← h2, hc]; exact hst)
  · simp only [hbusy]; exact hi.dirFree
  · intro x h1 h2 h3
    simp only [hbusy] at h2
    rw [hF x fun hc => h3 (hc ▸ hst)]
    exact hi.off x h1 h2 h3
  · intro g'
    dsimp only
    by_cases he : g' = g
    · subst he; rw [upd_same]; exact hok
    · rw [upd_of_ne _ _ he]
      refine pcOk_frame (hi.pcs g') (fun o' x h1 h2 => ?_) (fun m hm => hW m fun hc => ?_)
      · refine hF x fun hx => he ?_
        exact hi.excl _ _ _ _ x h1 ho h2 (.inr (by rw [hx]))
      · subst hc
        exact he (hi.excln _ _ _ hm ho)
  · intro m hm hg
    have hne : m ≠ n := fun hc => by
      subst hc
      exact hg g (by dsimp only; rw [upd_same]; exact hp)
    obtain ⟨h1, h2, h3⟩ := hi.done m hm fun g' => by rw [← hop]; exact hg g'
    refine ⟨fun x hx => ?_, by rw [(hW m hne).1]; exact h2, by rw [(hW m hne).2]; exact h3⟩
    rw [hF x fun hc => hne (hx.symm.trans hc)]
    exact h1 x hx

end Braid.Book
