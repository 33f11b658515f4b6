import Verif.Register.BoundLive
import Verif.Register.Props

/-
C30, C31: how far the limits on actors can be exceeded.
-/
namespace Braid.Register
open AddressBook Spec

variable {cfg : Nat → NodeCfg} {factory : Nat → String → Option Int}

/-- Live actors of the history are those of the state. -/
theorem alive_state {h : List Ev} {s : State} (hr : (sys cfg factory).Run h s) {i : Nat} {a : Inst}
    (ha : Alive h i a) : s.inst i = a ∧ s.alive i = true := by
  have hh := invH_run hr
  obtain ⟨h1, h2⟩ := ha
  rw [hh.created] at h1
  rw [hh.exited] at h2
  refine ⟨h1.2, ?_⟩
  cases h : s.alive i with
  | true => rfl
  | false => exact absurd ⟨h1.1, h⟩ h2

/-- C30, in all interleavings: if at most `K` calls of `Register` for the type overlap anywhere in the cluster, the limit
is exceeded by at most `K - 1` records. Calls for other types, `Unregister` and the cleanup in `Call` may run at any
time, and any Redis command may fail. For calls that do not overlap (`K = 1`) this is the limit itself. -/
theorem C30_bound {h : List Ev} {s : State} (hr : (sys cfg factory).Run h s) (ty : String) (L : Int) (K : Nat)
    (hL : 0 < L) (hlim : ∀ g n b, .begin g (.reg n b) ∈ h → b.ty = ty → b.limit ≠ 0 ∧ b.limit ≤ L)
    (hK : AtMost typeKey ty K h) : ((s.W.redis.tys ty).length : Int) ≤ L + K - 1 := by
  obtain ⟨N, hN⟩ := below_exists h
  have := many_run (by omega) hr hN hK hlim
  omega

/-- C30 for the actors themselves: under the same conditions there are at most `L + K - 1` live actors of the type in the
cluster, as long as calls for one id do not overlap, every id is used on one node only and no cleanup removes records of
live actors (see `C30_cleanup_refuted` for what happens otherwise). With `K = 1` this is the limit. -/
theorem C30_live_partial {h : List Ev} {s : State} (hr : (sys cfg factory).Run h s) (ty : String) (L : Int) (K : Nat)
    (hL : 0 < L) (hlim : ∀ g n b, .begin g (.reg n b) ∈ h → b.ty = ty → b.limit ≠ 0 ∧ b.limit ≤ L)
    (hK : AtMost typeKey ty K h) (hx : Exclusive idKey h) (ho : OneOwner h) (l : List Nat) (hl : l.Nodup)
    (hm : ∀ i ∈ l, ∃ a, Alive h i a ∧ a.ty = ty) : (l.length : Int) ≤ L + K - 1 := by
  obtain ⟨owner, ho⟩ := ho
  have h1 := C30_bound hr ty L K hL hlim hK
  have h2 := live_le hr hx (invR_run hr hx ho) hl (ty := ty) (fun i hi => by
    obtain ⟨a, ha, hty⟩ := hm i hi
    obtain ⟨h3, h4⟩ := alive_state hr ha
    exact ⟨h4, by rw [h3]; exact hty⟩)
  omega

/-- C31, in all interleavings: if at most `K` calls of `Register` for a node-unique type overlap on a node, there are at most
`K` live actors of the type on it, as long as operations on one id of a node do not overlap. For calls that do not
overlap (`K = 1`) there is at most one. -/
theorem C31_bound {h : List Ev} {s : State} (hr : (sys cfg factory).Run h s) (n : Nat) (ty : String) (K : Nat)
    (hu : ∀ g b, .begin g (.reg n b) ∈ h → b.ty = ty → b.unique = true ∧ b.limit ≠ 0)
    (hx : Exclusive idKey h) (hK : AtMost nodeTypeKey (n, ty) K h) (l : List Nat) (hl : l.Nodup)
    (hm : ∀ i ∈ l, ∃ a, Alive h i a ∧ a.node = n ∧ a.ty = ty) : l.length ≤ K := by
  obtain ⟨N, hN⟩ := below_exists h
  have := unique_run hr hN hx hK hu l hl (fun i hi => by
    obtain ⟨a, ha, h1, h2⟩ := hm i hi
    obtain ⟨h3, h4⟩ := alive_state hr ha
    exact ⟨h4, by rw [h3]; exact h1, by rw [h3]; exact h2⟩)
  omega

/-! ### The bounds are reached -/

theorem again {α β : Type} [DecidableEq α] (f : α → β) (a : α) (b c : β) : upd (upd f a b) a c = upd f a c := by
  funext x
  by_cases h : x = a
  · subst h; simp
  · rw [upd_of_ne _ _ h, upd_of_ne _ _ h, upd_of_ne _ _ h]

/-- Names of actors. -/
def nm (i : Nat) : String := String.ofList (List.replicate (i + 1) 'x')

theorem nm_length (i : Nat) : (nm i).length = i + 1 := by simp [nm]

theorem nm_inj {i j : Nat} (h : nm i = nm j) : i = j := by
  have := congrArg String.length h
  rw [nm_length, nm_length] at this
  omega

theorem nm_ne (i : Nat) : nm i ≠ "" := by
  intro h
  have := congrArg String.length h
  rw [nm_length] at this
  simp at this

/-- The actor number `i`, of the type "t" with limit `L`. -/
def many (L : Int) (i : Nat) : Builder := ⟨nm i, "t", 1, L, false⟩

/-- The goroutines below `c` have called `Register`, each on its own node, and those below `f` have finished. -/
structure Stage (L : Int) (K c f : Nat) (h : List Ev) (s : State) : Prop where
  run : (sys exCfg exFactory).Run h s
  le : f ≤ c
  idle : ∀ g, c ≤ g → s.pc g = .idle
  book : ∀ g, f ≤ g → g < c → s.pc g = .rBook g (many L g)
  tys : (s.W.redis.tys "t").length = f
  mem : ∀ a ∈ s.W.redis.tys "t", ∃ i, i < f ∧ a.actorId = nm i
  idmap : ∀ g, f ≤ g → s.W.idmap g (nm g) = false
  map : ∀ g, f ≤ g → s.map g = []
  next : s.next = f
  live : ∀ i, i < f → Alive h i ⟨i, nm i, "t"⟩
  begun : ∀ g o, Ev.begin g o ∈ h → g < c ∧ o = .reg g (many L g)
  busy : busy typeKey "t" h + f ≤ c
  most : AtMost typeKey "t" K h
  excl : Exclusive idKey h

theorem atMost_concat {κ : Type} [DecidableEq κ] {key : Op → Option κ} {k : κ} {K : Nat} {h : List Ev} {e : Ev}
    (h1 : AtMost key k K h) (h2 : busy key k (h ++ [e]) ≤ K) : AtMost key k K (h ++ [e]) := by
  intro pre post he
  rcases List.append_eq_append_iff.1 he with ⟨t, h3, h4⟩ | ⟨t, h3, h4⟩
  · cases t with
    | nil => simp only [List.append_nil] at h3; rw [h3]; exact h1 h [] (by simp)
    | cons x t =>
      simp only [List.cons_append, List.cons.injEq] at h4
      obtain ⟨rfl, h4⟩ := h4
      have := List.append_eq_nil_iff.1 h4.symm
      rw [h3, this.1]
      exact h2
  · exact h1 pre t h3

theorem excl_concat {κ : Type} {key : Op → Option κ} {h : List Ev} {e : Ev} (h1 : Exclusive key h)
    (h2 : ∀ g o, e = .begin g o → ∀ p ∈ activeOf h, ∀ k, key o = some k → key p.2 ≠ some k) :
    Exclusive key (h ++ [e]) := by
  intro pre g o post he
  rcases append_eq_mid he with ⟨t, h3, h4⟩ | ⟨t, h3, h4⟩
  · exact h1 pre g o t h3
  · cases t with
    | nil =>
      simp only [List.nil_append, List.cons.injEq] at h3
      rw [h4, List.append_nil]
      exact h2 g o h3.1
    | cons x t => simp at h3

theorem countP_filter_lt {α : Type} {p q : α → Bool} {l : List α} {x : α} (hx : x ∈ l) (hp : p x = true)
    (hq : q x = false) : (l.filter q).countP p + 1 ≤ l.countP p := by
  induction l with
  | nil => cases hx
  | cons y l ih =>
    have hle : (l.filter q).countP p ≤ l.countP p := (List.filter_sublist).countP_le
    rcases List.mem_cons.1 hx with rfl | hx
    · rw [List.filter_cons, hq, List.countP_cons, hp]
      simp only [Bool.false_eq_true, if_false, if_true]
      omega
    · have := ih hx
      rw [List.filter_cons, List.countP_cons]
      split
      · rw [List.countP_cons]; omega
      · omega

theorem stage_init (L : Int) (K : Nat) : Stage L K 0 0 [] init :=
  { run := Lts.Run.init
    le := Nat.le_refl _
    idle := fun _ _ => rfl
    book := fun _ _ h => (by omega)
    tys := rfl
    mem := fun _ h => (by cases h)
    idmap := fun _ _ => rfl
    map := fun _ _ => rfl
    next := rfl
    live := fun _ h => (by omega)
    begun := fun _ _ h => (by cases h)
    busy := (by simp [Spec.busy, activeOf, active])
    most := fun pre post h => (by
      have := List.append_eq_nil_iff.1 h.symm
      rw [this.1]; simp [Spec.busy, activeOf, active])
    excl := fun pre _ _ _ h => (by simp at h) }

/-- One more goroutine calls `Register` and counts. -/
theorem stage_count {L : Int} {K c f : Nat} {h : List Ev} {s : State} (hS : Stage L K c f h s) (hL : (f : Int) < L)
    (hK : c - f < K) : ∃ h' s', Stage L K (c + 1) f h' s' := by
  have hf := hS.le
  have r1 := hS.run.step (a := .start c (.reg c (many L c))) (s' := { s with pc := upd s.pc c (.rMap c (many L c)) })
    (evs := [.begin c (.reg c (many L c))]) (by simp only [sys, step, hS.idle c (Nat.le_refl _)])
  have r2 := r1.step (a := .go c) (s' := { s with pc := upd s.pc c (.rCount c (many L c)) }) (evs := []) (by
      simp only [sys, step, stepGo, upd_same]
      rw [if_neg (by simp [many, nm_ne]), if_neg (by simp [hS.map c hf, get]),
        if_pos (by simp only [many]; omega), if_neg (by simp [many])]
      simp only [at_, again])
  have r3 := r2.step (a := .go c) (s' := { s with pc := upd s.pc c (.rBook c (many L c)) }) (evs := []) (by
      simp only [sys, step, stepGo, upd_same]
      rw [if_neg (by simp only [many, getActorTypeCount, hS.tys]; omega)]
      simp only [at_, again])
  simp only [List.append_nil] at r3
  have hact : ∀ p ∈ activeOf h, ∃ g, g < c ∧ p = (g, .reg g (many L g)) := fun p hp => by
    obtain ⟨g, o⟩ := p
    have := active_begun _ g o hp
    obtain ⟨h1, rfl⟩ := hS.begun g o (by simpa using this)
    exact ⟨g, h1, rfl⟩
  have hb : Spec.busy typeKey "t" (h ++ [.begin c (.reg c (many L c))]) = Spec.busy typeKey "t" h + 1 := by
    simp [Spec.busy, activeOf_concat, typeKey, many]
  have hbs := hS.busy
  refine ⟨_, _, ⟨r3, by omega, ?_, ?_, hS.tys, hS.mem, hS.idmap, hS.map, hS.next, ?_, ?_, by omega,
    atMost_concat hS.most (by omega), excl_concat hS.excl ?_⟩⟩
  · intro g hg
    dsimp only
    rw [upd_of_ne _ _ (by omega)]
    exact hS.idle g (by omega)
  · intro g h1 h2
    dsimp only
    by_cases he : g = c
    · subst he; rw [upd_same]
    · rw [upd_of_ne _ _ he]; exact hS.book g h1 (by omega)
  · intro i hi
    obtain ⟨h1, h2⟩ := hS.live i hi
    exact ⟨List.mem_append_left _ h1, by simp [h2]⟩
  · intro g o hm
    rcases List.mem_append.1 hm with hm | hm
    · have := hS.begun g o hm; exact ⟨by omega, this.2⟩
    · simp only [List.mem_singleton, Ev.begin.injEq] at hm
      obtain ⟨rfl, rfl⟩ := hm
      exact ⟨by omega, rfl⟩
  · intro g o he p hp k hk
    cases he
    obtain ⟨g', hg', rfl⟩ := hact p hp
    simp only [idKey, Option.some.injEq] at hk ⊢
    rw [← hk]
    intro h1
    have : g' = c := congrArg Prod.fst (Option.some.inj h1)
    omega

/-- The first goroutine that has counted finishes. -/
theorem stage_finish {L : Int} {K c f : Nat} {h : List Ev} {s : State} (hS : Stage L K c f h s) (hc : f < c) :
    ∃ h' s', Stage L K c (f + 1) h' s' := by
  have hpc := hS.book f (Nat.le_refl _) hc
  have r1 := hS.run.step (a := .go f) (s' := { s with pc := upd s.pc f (.rPipe f (many L f) 0) }) (evs := []) (by
    simp only [sys, step, stepGo, hpc]
    rw [if_neg (by simp only [many]; rw [hS.idmap f (Nat.le_refl _)]; simp)]
    rfl)
  have pipe : ∀ k, k ≤ 5 → (sys exCfg exFactory).Run (h ++ []) { s with
      W := { s.W with redis := s.W.redis.pipe ((registerCmds exCfg f "t" (nm f) 1).take k) }
      pc := upd s.pc f (.rPipe f (many L f) k) } := by
    intro k
    induction k with
    | zero => intro _; exact r1
    | succ k ih =>
      intro hk
      have hlen : k < (registerCmds exCfg f "t" (nm f) 1).length := by simp [registerCmds]; omega
      have hget : (registerCmds exCfg f "t" (nm f) 1)[k]? = some (registerCmds exCfg f "t" (nm f) 1)[k] :=
        List.getElem?_eq_getElem hlen
      have := (ih (by omega)).step (a := .go f) (s' := { s with
          W := { s.W with redis := s.W.redis.pipe ((registerCmds exCfg f "t" (nm f) 1).take (k + 1)) }
          pc := upd s.pc f (.rPipe f (many L f) (k + 1)) }) (evs := []) (by
        simp only [sys, step, stepGo, upd_same, many, hget, again]
        have : List.take (k + 1) (registerCmds exCfg f "t" (nm f) 1) =
            List.take k (registerCmds exCfg f "t" (nm f) 1) ++ [(registerCmds exCfg f "t" (nm f) 1)[k]] := by
          rw [List.take_add_one, hget]; rfl
        rw [this]
        simp only [Redis.pipe, List.foldl_append, List.foldl_cons, List.foldl_nil])
      rwa [List.append_nil] at this
  have r2 := (pipe 5 (Nat.le_refl _)).step (a := .go f) (s' := { s with
      W := { s.W with redis := s.W.redis.pipe (registerCmds exCfg f "t" (nm f) 1) }
      pc := upd s.pc f (.rIdmap f (many L f)) }) (evs := []) (by
    simp [sys, step, stepGo, upd_same, many, registerCmds, at_, again])
  have r3 := r2.step (a := .go f) (s' := { s with
      W := setIdmap { s.W with redis := s.W.redis.pipe (registerCmds exCfg f "t" (nm f) 1) } f (nm f) true
      pc := upd s.pc f (.rBuild f (many L f)) }) (evs := []) (by
    simp only [sys, step, stepGo, upd_same, again]; rfl)
  have r4 := r3.step (a := .go f) (s' := { s with
      W := setIdmap { s.W with redis := s.W.redis.pipe (registerCmds exCfg f "t" (nm f) 1) } f (nm f) true
      inst := upd s.inst s.next ⟨f, nm f, "t"⟩
      alive := upd s.alive s.next true
      next := s.next + 1
      pc := upd s.pc f (.rInsert f (many L f) s.next) }) (evs := [.created s.next ⟨f, nm f, "t"⟩]) (by
    simp only [sys, step, stepGo, upd_same, again]; rfl)
  have r5 := r4.step (a := .go f) (s' := { s with
      W := setIdmap { s.W with redis := s.W.redis.pipe (registerCmds exCfg f "t" (nm f) 1) } f (nm f) true
      map := upd s.map f (put (s.map f) (nm f) s.next)
      inst := upd s.inst s.next ⟨f, nm f, "t"⟩
      alive := upd s.alive s.next true
      next := s.next + 1
      pc := upd s.pc f .idle }) (evs := [.finish f .ok]) (by
    simp only [sys, step, stepGo, upd_same, again]; rfl)
  simp only [List.append_nil, List.append_assoc, List.singleton_append, hS.next] at r5
  have htys : ((s.W.redis.pipe (registerCmds exCfg f "t" (nm f) 1)).tys "t") =
      s.W.redis.tys "t" ++ [addrOf exCfg f "t" (nm f)] := by
    have hnot : addrOf exCfg f "t" (nm f) ∉ s.W.redis.tys "t" := fun hm => by
      obtain ⟨i, hi, he⟩ := hS.mem _ hm
      have := nm_inj (i := f) (j := i) he
      omega
    simp [Redis.pipe, registerCmds, Redis.run, AddressBook.set, hnot]
  have hin : (f, Op.reg f (many L f)) ∈ activeOf h := (active_iff hS.run f _).2 (by rw [hpc]; rfl)
  have hb1 : Spec.busy typeKey "t" (h ++ [.created f ⟨f, nm f, "t"⟩]) = Spec.busy typeKey "t" h := by
    simp [Spec.busy, activeOf_concat]
  have hb2 : Spec.busy typeKey "t" (h ++ [.created f ⟨f, nm f, "t"⟩] ++ [.finish f .ok]) + 1 ≤ Spec.busy typeKey "t" h := by
    simp only [Spec.busy, activeOf_concat]
    exact countP_filter_lt hin (by simp [typeKey, many]) (by simp)
  have hbs := hS.busy
  have hm := hS.most h [] (by simp)
  have he : h ++ [Ev.created f ⟨f, nm f, "t"⟩, .finish f .ok] = h ++ [.created f ⟨f, nm f, "t"⟩] ++ [.finish f .ok] := by
    simp
  refine ⟨_, _, ⟨r5, by omega, ?_, ?_, ?_, ?_, ?_, ?_, rfl, ?_, ?_, ?_, ?_, ?_⟩⟩
  · intro g hg
    dsimp only
    rw [upd_of_ne _ _ (by omega)]
    exact hS.idle g hg
  · intro g h1 h2
    dsimp only
    rw [upd_of_ne _ _ (by omega)]
    exact hS.book g (by omega) h2
  · show (List.length ((s.W.redis.pipe (registerCmds exCfg f "t" (nm f) 1)).tys "t")) = _
    rw [htys]; simp [hS.tys]
  · show ∀ a ∈ ((s.W.redis.pipe (registerCmds exCfg f "t" (nm f) 1)).tys "t"), _
    rw [htys]
    intro a ha
    rcases List.mem_append.1 ha with ha | ha
    · obtain ⟨i, hi, h1⟩ := hS.mem a ha
      exact ⟨i, by omega, h1⟩
    · rw [List.mem_singleton] at ha
      subst ha
      exact ⟨f, by omega, rfl⟩
  · intro g hg
    simp only [setIdmap]
    rw [if_neg (by omega)]
    exact hS.idmap g (by omega)
  · intro g hg
    dsimp only
    rw [upd_of_ne _ _ (by omega)]
    exact hS.map g (by omega)
  · intro i hi
    by_cases hif : i = f
    · subst hif
      refine ⟨by simp, ?_⟩
      intro hm
      simp only [List.mem_append, List.mem_cons, reduceCtorEq, List.not_mem_nil, or_false] at hm
      have := ((invH_run hS.run).exited i).1 hm
      have := hS.next
      omega
    · obtain ⟨h1, h2⟩ := hS.live i (by omega)
      exact ⟨List.mem_append_left _ h1, by simp [h2]⟩
  · intro g o hm
    exact hS.begun g o (by simpa using hm)
  · rw [he]; omega
  · rw [he]
    exact atMost_concat (atMost_concat hS.most (by omega)) (by omega)
  · rw [he]
    exact excl_concat (excl_concat hS.excl (fun _ _ h => by cases h)) (fun _ _ h => by cases h)

theorem stage_one_by_one (L : Int) (K : Nat) (hK : 0 < K) (m : Nat) (hm : (m : Int) < L) :
    ∃ h s, Stage L K m m h s := by
  induction m with
  | zero => exact ⟨_, _, stage_init L K⟩
  | succ m ih =>
    obtain ⟨h, s, hS⟩ := ih (by omega)
    obtain ⟨h, s, hS⟩ := stage_count hS (by omega) (by omega)
    exact stage_finish hS (by omega)

theorem stage_counts {L : Int} {K m : Nat} (hm : (m : Int) < L) {h : List Ev} {s : State} (hS : Stage L K m m h s)
    (j : Nat) (hj : j ≤ K) : ∃ h s, Stage L K (m + j) m h s := by
  induction j with
  | zero => exact ⟨h, s, hS⟩
  | succ j ih =>
    obtain ⟨h, s, hS⟩ := ih (by omega)
    exact stage_count hS hm (by show m + j - m < K; omega)

theorem stage_finishes {L : Int} {K c m : Nat} {h : List Ev} {s : State} (hS : Stage L K c m h s)
    (j : Nat) (hj : m + j ≤ c) : ∃ h s, Stage L K c (m + j) h s := by
  induction j with
  | zero => exact ⟨h, s, hS⟩
  | succ j ih =>
    obtain ⟨h, s, hS⟩ := ih (by omega)
    exact stage_finish hS (by show m + j < c; omega)

/-- C30 is violated as far as `C30_bound` allows, for every limit `m + 1` and every number `K` of overlapping calls:
after `m` actors were registered one after the other, `K` nodes register one each at the same time, all succeed, and
there are `m + K` records and `m + K` live actors. No two calls are for the same id. -/
theorem C30_exceeded_refuted (m K : Nat) (hK : 0 < K) : ∃ h s, (sys exCfg exFactory).Run h s ∧
    (∀ g n b, .begin g (.reg n b) ∈ h → b.ty = "t" ∧ b.limit = (m : Int) + 1) ∧
    AtMost typeKey "t" K h ∧ Exclusive idKey h ∧ OneOwner h ∧
    (s.W.redis.tys "t").length = m + K ∧ ∀ i, i < m + K → Alive h i ⟨i, nm i, "t"⟩ := by
  obtain ⟨h, s, hS⟩ := stage_one_by_one ((m : Int) + 1) K hK m (by omega)
  obtain ⟨h, s, hS⟩ := stage_counts (by omega) hS K (Nat.le_refl _)
  obtain ⟨h, s, hS⟩ := stage_finishes hS K (by omega)
  refine ⟨h, s, hS.run, ?_, hS.most, hS.excl, ⟨fun id => id.length - 1, ?_⟩, hS.tys, hS.live⟩
  · intro g n b hb
    obtain ⟨-, h1⟩ := hS.begun g _ hb
    cases h1
    exact ⟨rfl, rfl⟩
  · intro g o hb
    obtain ⟨-, rfl⟩ := hS.begun g o hb
    exact ⟨g, nm g, rfl, by show (nm g).length - 1 = g; rw [nm_length]; omega⟩

/-! ### Examples -/

/-- A check of `AtMost` for a given history. -/
def most {κ : Type} [DecidableEq κ] (key : Op → Option κ) (k : κ) (K : Nat) (h : List Ev) : Bool :=
  (List.range (h.length + 1)).all fun j => decide (Spec.busy key k (h.take j) ≤ K)

theorem most_sound {κ : Type} [DecidableEq κ] {key : Op → Option κ} {k : κ} {K : Nat} {h : List Ev}
    (hm : most key k K h = true) : AtMost key k K h := by
  intro pre post he
  simp only [most, List.all_eq_true, List.mem_range, decide_eq_true_eq] at hm
  have := hm pre.length (by rw [he]; simp; omega)
  rwa [he, List.take_left] at this

set_option maxRecDepth 20000 in
example : ∃ h s, (sys exCfg exFactory).Run h s ∧
    (∀ g b, .begin g (.reg 0 b) ∈ h → b.ty = "t" → b.unique = true ∧ b.limit ≠ 0) ∧ Exclusive idKey h ∧
    AtMost nodeTypeKey (0, "t") 2 h ∧ Alive h 0 ⟨0, "x", "t"⟩ ∧ Alive h 1 ⟨0, "y", "t"⟩ := by
  refine ⟨_, _, Lts.run_of_exec (M := sys exCfg exFactory) (as := uniqueRaceActs) rfl, ?_, ?_, ?_, ?_, ?_⟩
  · intro g b hb
    simp at hb
    rcases hb with ⟨-, rfl⟩ | ⟨-, rfl⟩ <;> decide
  · exact exclusive_of_check (by decide)
  · exact most_sound (by decide +kernel)
  · exact ⟨by decide, by decide⟩
  · exact ⟨by decide, by decide⟩

end Braid.Register
