import Verif.CallTree.Tree

/-
C20 and C21: what the return of a synchronous call says.
-/
namespace Braid.CallTree
open Spec

theorem accRemote_run {h : List Ev} {s : State} (hr : sys.Run h s) :
    ∀ d r, (s.op d).thr = .acc r → (s.op r).kind = .remote := by
  refine hr.invariant (P := fun _ s => ∀ d r, (s.op d).thr = .acc r → (s.op r).kind = .remote) ?_ ?_
  · intro d r h; cases h
  · intro h s a s' evs hr hi hs
    replace hs : step s a = some (s', evs) := hs
    have hb := (inv_run hr).b
    have h1 := hb.unused
    have h2 := hb.accLt
    have h3 := fun c => ((inv_run hr).ok c).rpc
    cases a with
    | begin t k a g w =>
      simp only [step] at hs
      split at hs
      case isFalse => cases hs
      cases hs
      simp only [upd_apply]
      intro d r
      grind [ready, noOp]
    | _ => ct_cases hs <;> grind [upd_apply]

/-- A place of the tree that is settled. -/
def Settled (s : State) (d : Nat) : Prop :=
  d < s.n ∧ ((∃ r, r < s.n ∧ (s.op r).inner = .closed ∧ STree s r d) ∨
    ((s.op d).mpc = .none ∧ (s.op d).cpc.isRet = true))

theorem settled_done {s : State} (ht : InvT s) {d : Nat} (h : Settled s d) :
    (s.op d).mpc = .done ∨ (s.op d).mpc = .none ∧ (s.op d).cpc.isRet = true := by
  obtain ⟨hn, ⟨r, h1, h2, h3⟩ | h⟩ := h
  · exact ht r h2 h1 d h3
  · exact .inr h

theorem returned_settled {h : List Ev} {s : State} (hr : sys.Run h s) {d : Nat} (hn : d < s.n)
    (hret : (s.op d).cpc.isRet = true) (hk : (s.op d).root = true ∨ (s.op d).kind = .remote)
    (h1 : .timeout d ∉ h) (h2 : .expired d ∉ h) : Settled s d := by
  have hi := inv_run hr
  have he := invE_run hr
  refine ⟨hn, ?_⟩
  cases hc : (s.op d).cpc with
  | returned ok =>
    cases ok with
    | false =>
      rcases he.failed d hn hc with ⟨h3, -⟩ | h3
      · exact .inr ⟨h3, rfl⟩
      · exact absurd h3 h2
    | true =>
      rcases hk with hk | hk
      · have h3 := (hi.ok d).retRoot hc hk
        rcases he.fin d (by rw [h3]; rfl) with h4 | h4
        · exact .inl ⟨d, hn, h4, .top⟩
        · exact absurd h4 h1
      · exact .inr ⟨((hi.ok d).remote hk).1, rfl⟩
  | _ => rw [hc] at hret; cases hret

theorem tree_settled {h : List Ev} {s : State} (hr : sys.Run h s) {c : Nat}
    (hroot : .root c ∈ h) {e : Bool} (hret : .ret c true e ∈ h) (hcalm : Calm h c)
    (hw : ∀ d, Tree h c d → d ≠ c → Waits h d) {d : Nat} (ht : Tree h c d) : Settled s d := by
  have hi := inv_run hr
  have he := invE_run hr
  have hT := invT_run hr
  induction ht with
  | top =>
    exact returned_settled hr (he.rootLt c hroot) (by rw [he.ret c true e hret]; rfl) (.inl (he.root c hroot))
      (hcalm c .top).1 (hcalm c .top).2
  | @nested m d hm hn ih =>
    have htree : Tree h c d := .nested hm hn
    obtain ⟨n1, n2⟩ := hcalm d htree
    have hdone := settled_done hT ih
    -- a call that has returned and is not made with the group of its parent
    have settle : d < s.n → (s.op d).cpc.isRet = true → ¬ (∃ m', Own h m' d) → Settled s d := by
      intro hdn hdr hno
      by_cases hdc : d = c
      · subst hdc
        exact returned_settled hr hdn hdr (.inl (he.root d hroot)) n1 n2
      · rcases hw d htree hdc with h3 | ⟨t, g, h3⟩ | h3
        · exact returned_settled hr hdn hdr (.inl (he.root d h3)) n1 n2
        · exact returned_settled hr hdn hdr (.inr (he.kind d t .remote g h3)) n1 n2
        · exact absurd h3 hno
    have hndCase : ∀ k g, .begin d (.hnd m) k g ∈ h → Settled s d := by
      intro k g hb
      have hdn := he.lt d _ _ _ hb
      have hthr := he.thr d _ _ _ hb
      have hmd : (s.op m).mpc = .done := by
        rcases hi.h.hnd d m hdn hthr with h3 | h3 <;> rcases hdone with h4 | ⟨h4, -⟩ <;> simp_all [MPc.over]
      have hdr := hi.h.hndOver d m hdn hthr (by rw [hmd]; rfl)
      by_cases hown : ∃ m', Own h m' d
      · obtain ⟨m', k', g', t', k'', hb', -, hm'⟩ := hown
        have := he.thr d _ _ _ hb'
        rw [hthr] at this
        cases this
        refine ⟨hdn, ?_⟩
        rcases ih with ⟨-, ⟨r, r1, r2, r3⟩ | ⟨h4, -⟩⟩
        · exact .inl ⟨r, r1, r2, .child r3 hdn hthr ((he.grp d _ _ _ hb').trans (he.grp m _ _ _ hm').symm)⟩
        · rw [hmd] at h4; cases h4
      · exact settle hdn hdr hown
    rcases hn with ⟨k, g, hb, -⟩ | ⟨k, g, t, k', hb, -, -⟩ | ⟨k, g, hb⟩
    · exact hndCase k g hb
    · exact hndCase k g hb
    · have hdn := he.lt d _ _ _ hb
      have hthr := he.thr d _ _ _ hb
      have hrem := accRemote_run hr d m hthr
      have hmn := ((hi.ok m).remote hrem).1
      have hmr : (s.op m).cpc.isRet = true := by
        rcases hdone with h4 | ⟨-, h4⟩
        · rw [hmn] at h4; cases h4
        · exact h4
      have hmt : (s.op m).cpc = .returned true := by
        cases hc : (s.op m).cpc with
        | returned ok =>
          cases ok with
          | true => rfl
          | false =>
            rcases he.failed m ih.1 hc with ⟨-, h5⟩ | h5
            · exact absurd hrem h5
            · exact absurd h5 (hcalm m hm).2
        | _ => rw [hc] at hmr; cases hmr
      have hdr := hi.h.accEnd d m hdn hthr (hi.h.retRpc m hmt hrem)
      refine settle hdn hdr ?_
      rintro ⟨m', k', g', t', k'', hb', -, -⟩
      have := he.thr d _ _ _ hb'
      rw [hthr] at this
      cases this

/-- Every operation has begun, with its group. -/
theorem begun_run {h : List Ev} {s : State} (hr : sys.Run h s) {g : Nat} (hf : ∀ d t k, .begin d t k g ∉ h) :
    ∀ d, d < s.n → (s.op d).grp ≠ g := by
  have : ∀ d, d < s.n → .begin d (s.op d).thr (s.op d).kind (s.op d).grp ∈ h := by
    refine hr.invariant (P := fun h s => ∀ d, d < s.n → .begin d (s.op d).thr (s.op d).kind (s.op d).grp ∈ h) ?_ ?_
    · intro d h; cases h
    · intro h s a s' evs hr hi hs
      replace hs : step s a = some (s', evs) := hs
      cases a with
      | begin t k a g w =>
        simp only [step] at hs
        split at hs
        case isFalse => cases hs
        cases hs
        intro d hd
        by_cases hdn : d = s.n
        · subst hdn
          refine List.mem_append_right _ ?_
          simp only [upd_same]; split <;> simp
        · simp only [upd_of_ne _ _ hdn]
          exact List.mem_append_left _ (hi d (by simp only at hd; omega))
      | _ => ct_cases hs <;> grind [upd_apply]
  intro d hd hg
  have := this d hd
  rw [hg] at this
  exact hf _ _ _ this

/-- C20 (partial): when a root call has returned nil, every message of its call tree, to any depth and on
any node, has been handled, for every tree, every assignment to actors and every schedule. Missing from
the full statement: nothing of the tree may have run into a timeout, an ended context or a failed remote
call (the first is the counterexample below), and every nested call must be made with the group of the
message handled, or be a root call, or go to another node. The history may end with the return, so the
messages have been handled by then. -/
theorem C20_tree_finished_partial {h : List Ev} {s : State} (hr : sys.Run h s) {c : Nat}
    (hroot : .root c ∈ h) {e : Bool} (hret : .ret c true e ∈ h) (hcalm : Calm h c)
    (hw : ∀ d, Tree h c d → d ≠ c → Waits h d) {d : Nat} (ht : Tree h c d) (ha : .accepted d ∈ h) :
    .handled d ∈ h := by
  have h1 := settled_done (invT_run hr) (tree_settled hr hroot hret hcalm hw ht)
  have h2 := (invE_run hr).accepted d ha
  rcases h1 with h1 | ⟨h1, -⟩
  · exact (invE_run hr).over d (by rw [h1]; rfl)
  · rw [h1] at h2; cases h2

/-- C20: the part of the tree that shares the group of the root call (built from the contexts of the
handlers, to any depth) is handled when the call returns nil and the wrapper carries no error, whatever
else happened: a timeout shows in `mw.Err`. -/
theorem C20_no_error_partial {h : List Ev} {s : State} (hr : sys.Run h s) {c : Nat}
    (hroot : .root c ∈ h) (hret : .ret c true false ∈ h) {d : Nat} (ht : OwnTree h c d)
    (ha : .accepted d ∈ h) : .handled d ∈ h := by
  have hi := inv_run hr
  have he := invE_run hr
  have h3 := (hi.ok c).retRoot (he.ret c true false hret) (he.root c hroot)
  have h4 : (s.op c).inner = .closed := by
    rcases he.fin c (by rw [h3]; rfl) with h4 | h4
    · exact h4
    · exact absurd h4 (he.quiet c hret (he.root c hroot))
  have hst : STree s c d := by
    clear ha
    induction ht with
    | top => exact .top
    | own _ hown ih =>
      obtain ⟨k, g, t, k', hb, -, hm⟩ := hown
      exact .child ih (he.lt _ _ _ _ hb) (he.thr _ _ _ _ hb) ((he.grp _ _ _ _ hb).trans (he.grp _ _ _ _ hm).symm)
  have h2 := he.accepted d ha
  rcases invT_run hr c h4 (he.rootLt c hroot) d hst with h1 | ⟨h1, -⟩
  · exact he.over d (by rw [h1]; rfl)
  · rw [h1] at h2; cases h2

def isTimeout : Ev → Bool
  | .timeout _ => true
  | _ => false

theorem not_timeout {h : List Ev} (hd : h.any isTimeout = false) {x : Nat} : .timeout x ∉ h := by
  intro hm
  rw [List.any_eq_false] at hd
  exact hd _ hm rfl

/-- C20 is violated: a root call whose waiter gave up returns nil, with its message still in the mailbox.
Only the `Err` of the wrapper tells. -/
theorem C20_timeout_refuted : ∃ h s c, sys.Run h s ∧ .root c ∈ h ∧ .ret c true true ∈ h ∧ .accepted c ∈ h ∧
    .handled c ∉ h ∧ (s.op c).mpc = .queued := by
  refine ⟨_, _, 0, Lts.run_of_exec (M := sys)
    (as := [.begin (.ext 0) .call 0 0 0, .go 0 false, .go 0 false, .go 0 false, .go 0 false, .go 0 false,
      .outer 0 false, .outer 0 true, .outer 0 false, .go 0 false]) rfl, ?_, ?_, ?_, ?_, rfl⟩ <;> decide

/-- C20 is violated without any timeout of the root call and without any error in its wrapper: a handler
calls with a wrapper of its own, whose context ends, and goes on; the root call returns nil with the nested
message still in a mailbox. -/
theorem C20_nested_expiry_refuted : ∃ h s c d, sys.Run h s ∧ .root c ∈ h ∧ .ret c true false ∈ h ∧ Nested h c d ∧
    .accepted d ∈ h ∧ .handled d ∉ h ∧ (∀ x, .timeout x ∉ h) := by
  refine ⟨_, _, 0, 1, Lts.run_of_exec (M := sys)
    (as := [.begin (.ext 0) .call 0 0 0, .go 0 false, .go 0 false, .go 0 false, .go 0 false, .go 0 false,
      .take 0, .begin (.hnd 0) .call 1 1 1, .go 1 false, .go 1 false, .go 1 false, .go 1 false, .go 1 false,
      .expire 1, .finish 0, .release 0, .release 0,
      .outer 0 false, .inner 0, .outer 0 false, .outer 0 false, .go 0 false]) rfl,
    ?_, ?_, .inl ⟨.call, 1, ?_, by decide⟩, ?_, ?_, ?_⟩
  · decide
  · decide
  · decide
  · decide
  · decide
  · intro x
    exact not_timeout (by decide)

/-- The step that makes an operation return nil. -/
theorem ret_step {s s' : State} {a : Act} {evs : List Ev} {d : Nat} {e : Bool}
    (hs : step s a = some (s', evs)) (hm : .ret d true e ∈ evs) :
    (∀ x, .root x ∉ evs ∧ .timeout x ∉ evs ∧ .handled x ∉ evs ∧ ∀ t k g, .begin x t k g ∉ evs) ∧
    (((s.op d).cpc = .wait ∧ (s.op d).outer = .ended) ∨ (s.op d).cpc = .rpc ∨
      ((s.op d).cpc = .push ∧ (s.op d).root = false)) := by
  cases a with
  | begin t k a g w =>
    exfalso
    simp only [step] at hs
    split at hs
    case isFalse => cases hs
    cases hs
    split at hm <;> simp at hm
  | _ => ct_cases hs <;> grind

/-- The step that emitted an event, and the run before it. -/
theorem split_ev {h1 h2 : List Ev} {e : Ev} {s : State} (hr : sys.Run (h1 ++ e :: h2) s) :
    ∃ h0 s0 a s1 evs pre post, sys.Run h0 s0 ∧ step s0 a = some (s1, evs) ∧ evs = pre ++ e :: post ∧ h1 = h0 ++ pre := by
  obtain ⟨h0, s0, a, s1, pre, post, as, rest, r0, hs, e1, -, -⟩ := hr.split_at rfl
  exact ⟨h0, s0, a, s1, _, pre, post, r0, hs, rfl, e1⟩

/-- C21 (partial): a nested call that waits (a root call, so made with a group of its own) and returns nil
does so after its target has handled the message, unless its waiter gave up. Missing: a call with the group
of the message being handled, which is what a wrapper built from the handler's context gives (see
`C21_nested_refuted` and `C21_own_group_never_waits`), and timeouts. -/
theorem C21_waits_partial {h1 h2 : List Ev} {s : State} {d : Nat} {e : Bool}
    (hr : sys.Run (h1 ++ .ret d true e :: h2) s) (hroot : .root d ∈ h1) (hto : .timeout d ∉ h1) :
    .handled d ∈ h1 := by
  obtain ⟨h0, s0, a, s1, evs, pre, post, r0, hs, rfl, rfl⟩ := split_ev hr
  have hi := inv_run r0
  have he := invE_run r0
  have hT := invT_run r0
  have key : .root d ∈ h0 → .timeout d ∉ h0 → (s0.op d).cpc = .wait → (s0.op d).outer = .ended → .handled d ∈ h0 := by
    intro g1 g2 g3 g4
    rcases he.fin d (by rw [g4]; rfl) with h4 | h4
    · have h5 := (hi.ok d).late (by rw [g3]; rfl)
      rcases hT d h4 (he.rootLt d g1) d .top with h6 | ⟨h6, -⟩
      · exact he.over d (by rw [h6]; rfl)
      · rw [h6] at h5; simp [MPc.isIn] at h5
    · exact absurd h4 g2
  have hmem : Ev.ret d true e ∈ pre ++ .ret d true e :: post := by simp
  obtain ⟨hno, hcase⟩ := ret_step hs hmem
  have hroot0 : .root d ∈ h0 := by
    rcases List.mem_append.1 hroot with h | h
    · exact h
    · exact absurd (List.mem_append_left _ h) (hno d).1
  have hto0 : .timeout d ∉ h0 := fun h => hto (List.mem_append_left _ h)
  rcases hcase with ⟨g1, g2⟩ | g1 | ⟨-, g2⟩
  · exact List.mem_append_left _ (key hroot0 hto0 g1 g2)
  · have := ((hi.ok d).remote ((hi.ok d).rpc g1)).2
    rw [he.root d hroot0] at this; cases this
  · rw [he.root d hroot0] at g2; cases g2

/-- A nested call with the group of the message being handled is not a root call. -/
theorem own_not_root {h : List Ev} {s : State} (hr : sys.Run h s) :
    ∀ d m, d < s.n → (s.op d).thr = .hnd m → (s.op d).grp = (s.op m).grp → (s.op d).root = false := by
  refine hr.invariant (P := fun _ s => ∀ d m, d < s.n → (s.op d).thr = .hnd m →
    (s.op d).grp = (s.op m).grp → (s.op d).root = false) ?_ ?_
  · intro d m h; cases h
  · intro h s a s' evs hr hi hs
    replace hs : step s a = some (s', evs) := hs
    have inv := inv_run hr
    obtain ⟨h1, h2, h3⟩ := step_same inv hs
    intro d m hd hthr hg
    have old : d < s.n → (s.op d).root = (s'.op d).root := by
      intro hdn
      cases a with
      | begin t k a g w =>
        simp only [step] at hs
        split at hs
        case isFalse => cases hs
        cases hs
        simp only [upd_apply]; grind
      | _ => ct_cases hs <;> grind [upd_apply]
    by_cases hdn : d < s.n
    · have hm : m < s.n := by
        have := inv.h.hnd d m hdn ((h1 d hdn).1 ▸ hthr)
        by_cases hm : m < s.n
        · exact hm
        · rw [inv.b.unused m (by omega)] at this; simp [noOp, MPc.over] at this
      rw [← old hdn]
      exact hi d m hdn ((h1 d hdn).1 ▸ hthr) (by rw [← (h1 d hdn).2, ← (h1 m hm).2]; exact hg)
    · obtain ⟨h4, h5⟩ := h3 d (by omega) hd m hthr
      cases a with
      | begin t k a g w =>
        have hcnt := (invC_run hr).cnt g
        simp only [step] at hs
        split at hs
        case isFalse => cases hs
        cases hs
        simp only [upd_apply] at *
        have hdeq : d = s.n := by omega
        subst hdeq
        simp only [if_true] at *
        rw [if_neg (by omega)] at hg
        by_cases h0 : s.cnt g = 0
        · have z := tot_zero (f := hold1) (op := s.op) (g := g) (n := s.n) (by omega) m h5 hg.symm
          simp only [hold1, h4] at z
          split at z <;> simp_all
        · simp [h0]
      | _ => exfalso; ct_cases hs <;> simp_all

/-- C21 is violated by every call of a handler with the group of the message it handles: whenever such a
call returns nil, its message has not been handled yet. -/
theorem C21_own_group_never_waits {h1 h2 : List Ev} {s : State} {m d : Nat} {e : Bool}
    (hr : sys.Run (h1 ++ .ret d true e :: h2) s) (hown : Own h1 m d) : .handled d ∉ h1 := by
  obtain ⟨h0, s0, a, s1, evs, pre, post, r0, hs, rfl, rfl⟩ := split_ev hr
  have hi := inv_run r0
  have he := invE_run r0
  have hmem : Ev.ret d true e ∈ pre ++ .ret d true e :: post := by simp
  obtain ⟨hno, hcase⟩ := ret_step hs hmem
  obtain ⟨k, g, t, k', hb, hk, hm⟩ := hown
  have old : ∀ x t k g, .begin x t k g ∈ h0 ++ pre → .begin x t k g ∈ h0 := by
    intro x t k g hx
    rcases List.mem_append.1 hx with h | h
    · exact h
    · exact absurd (List.mem_append_left _ h) ((hno x).2.2.2 t k g)
  have hb := old _ _ _ _ hb
  have hm := old _ _ _ _ hm
  have hnr := own_not_root r0 d m (he.lt _ _ _ _ hb) (he.thr _ _ _ _ hb)
    ((he.grp _ _ _ _ hb).trans (he.grp _ _ _ _ hm).symm)
  intro hh
  have hh0 : .handled d ∈ h0 := by
    rcases List.mem_append.1 hh with h | h
    · exact h
    · exact absurd (List.mem_append_left _ h) (hno d).2.2.1
  have hov := he.handled d hh0
  rcases hcase with ⟨g1, -⟩ | g1 | ⟨g1, -⟩
  · have := ((hi.ok d).late (by rw [g1]; rfl)).2
    rw [hnr] at this; cases this
  · exact hk (((he.kind _ _ _ _ hb).symm).trans ((hi.ok d).rpc g1))
  · rw [((hi.ok d).early (by rw [g1]; rfl)).1] at hov; cases hov

/-- C21 is violated: a handler calls another actor with a wrapper built from its own context; the call
returns nil with the message still in the mailbox. -/
theorem C21_nested_refuted : ∃ h s, sys.Run h s ∧ Own h 0 1 ∧ .begin 1 (.hnd 0) .call 0 ∈ h ∧ .ret 1 true false ∈ h ∧
    .accepted 1 ∈ h ∧ .handled 1 ∉ h ∧ (s.op 1).mpc = .queued := by
  refine ⟨_, _, Lts.run_of_exec (M := sys)
    (as := [.begin (.ext 0) .call 0 0 0, .go 0 false, .go 0 false, .go 0 false, .go 0 false, .go 0 false,
      .take 0, .begin (.hnd 0) .call 1 0 1, .go 1 false, .go 1 false, .go 1 false, .go 1 false]) rfl,
    ⟨.call, 0, .ext 0, .call, ?_, ?_, ?_⟩, ?_, ?_, ?_, ?_, rfl⟩ <;> decide

/-- C21 is violated by a call to another node: the actor there refuses the message, the acceptor answers all
the same, and the call returns nil with no message accepted anywhere. -/
theorem C21_remote_refuted : ∃ h s, sys.Run h s ∧ .begin 0 (.ext 0) .remote 0 ∈ h ∧ .ret 0 true false ∈ h ∧
    (∀ d, .accepted d ∉ h ∧ .expired d ∉ h ∧ .timeout d ∉ h) := by
  refine ⟨[.begin 0 (.ext 0) .remote 0, .begin 1 (.acc 0) .call 1, .root 1, .ret 1 false false, .ret 0 true false],
    _, Lts.run_of_exec (M := sys)
    (as := [.begin (.ext 0) .remote 0 0 0, .begin (.acc 0) .call 0 1 1, .go 1 true, .go 0 false]) rfl, ?_, ?_, ?_⟩ <;> simp

/-- C21: a call with a wrapper whose group nobody has used before is a root call, so it waits. -/
theorem C21_fresh_group_is_root {h1 h2 : List Ev} {s : State} {d g : Nat} {t : Thr}
    (hr : sys.Run (h1 ++ .begin d t .call g :: h2) s) (hfresh : ∀ d' t' k', .begin d' t' k' g ∉ h1) :
    ∃ h3, h2 = .root d :: h3 := by
  obtain ⟨h0, s0, a, s1, pre, post, as, rest, r0, hs, rfl, rfl, -⟩ := hr.split_at rfl
  replace hs : step s0 a = some (s1, pre ++ .begin d t .call g :: post) := hs
  cases a with
  | begin t' k a g' w =>
    simp only [step] at hs
    split at hs
    case isFalse => cases hs
    simp only [Option.some.injEq, Prod.mk.injEq] at hs
    obtain ⟨-, hs⟩ := hs
    have hcnt := (invC_run r0).cnt g
    rw [tot_fresh (begun_run r0 fun d' t' k' h => hfresh d' t' k' (List.mem_append_left _ h))] at hcnt
    rcases pre with _ | ⟨p1, _ | ⟨p2, pre⟩⟩
    · by_cases hc : k = .call ∧ s0.cnt g' = 0
      · simp only [hc, and_self, decide_true, if_true, List.nil_append, List.cons.injEq, Ev.begin.injEq] at hs
        obtain ⟨⟨rfl, -, -, -⟩, rfl⟩ := hs
        exact ⟨rest, rfl⟩
      · simp only [hc, decide_false, List.nil_append] at hs
        simp at hs
        obtain ⟨⟨rfl, rfl, rfl, rfl⟩, -⟩ := hs
        exact absurd ⟨rfl, hcnt⟩ hc
    · split at hs <;> simp at hs
    · split at hs <;> simp at hs
  | _ =>
    exfalso
    have hmem : Ev.begin d t .call g ∈ pre ++ .begin d t .call g :: post := by simp
    generalize pre ++ Ev.begin d t .call g :: post = evs at hs hmem
    ct_cases hs <;> simp at hmem

/-- A call tree: root call 0; its handler calls 1 with its own group, 2 with a fresh one and 3 on another
node, which there becomes root call 4. The handler of 1 calls 5, again with the group of 0, which is handled
after the handler of 0 has ended. -/
def exActs : List Act :=
  let go5 (c : Nat) : List Act := [.go c false, .go c false, .go c false, .go c false, .go c false]
  let go4 (c : Nat) : List Act := [.go c false, .go c false, .go c false, .go c false]
  let handle (a : Nat) : List Act := [.finish a, .release a, .release a]
  let waitFor (c : Nat) : List Act := [.outer c false, .inner c, .outer c false, .outer c false, .go c false]
  [.begin (.ext 0) .call 0 0 0] ++ go5 0 ++ [.take 0, .begin (.hnd 0) .call 1 0 0] ++ go4 1 ++
  [.begin (.hnd 0) .call 2 1 1] ++ go5 2 ++ [.take 2] ++ handle 2 ++ waitFor 2 ++
  [.begin (.hnd 0) .remote 3 0 0, .begin (.acc 3) .call 3 2 2] ++ go5 4 ++ [.take 3] ++ handle 3 ++ waitFor 4 ++
  [.go 3 false] ++ handle 0 ++ [.take 1, .begin (.hnd 1) .call 4 0 0] ++ go4 5 ++ handle 1 ++
  [.take 4] ++ handle 4 ++ waitFor 0

def exHist : List Ev :=
  [.begin 0 (.ext 0) .call 0, .root 0, .accepted 0, .begin 1 (.hnd 0) .call 0, .accepted 1, .ret 1 true false,
   .begin 2 (.hnd 0) .call 1, .root 2, .accepted 2, .handled 2, .ret 2 true false, .begin 3 (.hnd 0) .remote 0,
   .begin 4 (.acc 3) .call 2, .root 4, .accepted 4, .handled 4, .ret 4 true false, .ret 3 true false, .handled 0,
   .begin 5 (.hnd 1) .call 0, .accepted 5, .ret 5 true false, .handled 1, .handled 5, .ret 0 true false]

set_option maxRecDepth 20000 in
/-- The hypotheses of the theorems on C20 hold for this tree of six calls. -/
example : (∃ s, sys.Run exHist s) ∧ .root 0 ∈ exHist ∧ .ret 0 true false ∈ exHist ∧ Calm exHist 0 ∧
    (∀ d, Tree exHist 0 d → d ≠ 0 → Waits exHist d) ∧ Tree exHist 0 4 ∧ Tree exHist 0 5 ∧ OwnTree exHist 0 5 := by
  have o1 : Own exHist 0 1 := ⟨.call, 0, .ext 0, .call, by simp [exHist], by decide, by simp [exHist]⟩
  have o5 : Own exHist 1 5 := ⟨.call, 0, .hnd 0, .call, by simp [exHist], by decide, by simp [exHist]⟩
  have t1 : Tree exHist 0 1 := .nested .top (.inr (.inl o1))
  have t3 : Tree exHist 0 3 := .nested .top (.inl ⟨.remote, 0, by simp [exHist], by decide⟩)
  refine ⟨⟨_, Lts.run_of_exec (M := sys) (as := exActs) rfl⟩, by simp [exHist], by simp [exHist], ?_, ?_,
    .nested t3 (.inr (.inr ⟨.call, 2, by simp [exHist]⟩)), .nested t1 (.inr (.inl o5)), .own (.own .top o1) o5⟩
  · intro d _; exact ⟨by simp [exHist], by simp [exHist]⟩
  · intro d ht hd
    have hb : ∃ t k g, Ev.begin d t k g ∈ exHist := by
      cases ht with
      | top => exact absurd rfl hd
      | nested _ hn =>
        rcases hn with ⟨k, g, h, -⟩ | ⟨k, g, _, _, h, -, -⟩ | ⟨k, g, h⟩ <;> exact ⟨_, k, g, h⟩
    obtain ⟨t, k, g, hb⟩ := hb
    simp only [exHist, List.mem_cons, Ev.begin.injEq, reduceCtorEq, false_or, or_false, List.not_mem_nil] at hb
    rcases hb with ⟨rfl, -⟩ | ⟨rfl, -⟩ | ⟨rfl, -⟩ | ⟨rfl, -⟩ | ⟨rfl, -⟩ | ⟨rfl, -⟩
    · exact absurd rfl hd
    · exact .inr (.inr ⟨0, o1⟩)
    · exact .inl (by simp [exHist])
    · exact .inr (.inl ⟨.hnd 0, 0, by simp [exHist]⟩)
    · exact .inl (by simp [exHist])
    · exact .inr (.inr ⟨1, o5⟩)

/-- The hypotheses of the theorems on C21 hold for calls 2 (a fresh group) and 1 (the group of its parent). -/
example : (∃ h1 h2, exHist = h1 ++ .ret 2 true false :: h2 ∧ .root 2 ∈ h1 ∧ .timeout 2 ∉ h1) ∧
    (∃ h1 h2, exHist = h1 ++ .ret 1 true false :: h2 ∧ Own h1 0 1) ∧
    (∃ h1 h2, exHist = h1 ++ .begin 2 (.hnd 0) .call 1 :: h2 ∧ ∀ d t k, .begin d t k 1 ∉ h1) := by
  refine ⟨⟨exHist.take 10, exHist.drop 11, rfl, by simp [exHist], by simp [exHist]⟩,
    ⟨exHist.take 5, exHist.drop 6, rfl, ⟨.call, 0, .ext 0, .call, by simp [exHist], by decide, by simp [exHist]⟩⟩,
    ⟨exHist.take 6, exHist.drop 7, rfl, by simp [exHist]⟩⟩

end Braid.CallTree
