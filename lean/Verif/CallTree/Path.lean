import Verif.CallTree.Props

/-
Branches of a call tree on which nothing was cut short (for C20).
-/
namespace Braid.CallTree
open Spec

namespace Spec

/-- `d` waits by itself, and its wait was not cut short. -/
def Secure (h : List Ev) (d : Nat) : Prop :=
  (.root d ∈ h ∨ ∃ t g, .begin d t .remote g ∈ h) ∧ .timeout d ∉ h ∧ .expired d ∉ h

/-- `d` belongs to the call tree of `c`, and nothing was cut short on the way from `c` to `d`: each call there was made with
the group of its parent, or waited by itself. Nothing is said about other branches. -/
inductive Clear (h : List Ev) (c : Nat) : Nat → Prop
  | top : .timeout c ∉ h → .expired c ∉ h → Clear h c c
  | nested {m d : Nat} : Clear h c m → Nested h m d → (Own h m d ∨ Secure h d) → Clear h c d

/-- Call `x` is to blame: it is a nested call that was not made with the group of its parent, and its context ended or its
waiter gave up, or it did not wait at all. -/
def Broken (h : List Ev) (x : Nat) : Prop :=
  (∃ m, Nested h m x ∧ ¬ Own h m x) ∧
    (.timeout x ∈ h ∨ .expired x ∈ h ∨ (.root x ∉ h ∧ ∀ t g, .begin x t .remote g ∉ h))

end Spec

theorem clear_remote {h : List Ev} {s : State} (he : InvE h s) {c m : Nat} (hm : Clear h c m)
    (hrem : (s.op m).kind = .remote) : .expired m ∉ h := by
  cases hm with
  | top _ n2 => exact n2
  | nested _ _ hs =>
    rcases hs with ⟨k, g, t, k', hb, hk, -⟩ | ⟨-, -, n2⟩
    · exact absurd ((he.kind m _ _ _ hb).symm.trans hrem) hk
    · exact n2

theorem clear_settled {h : List Ev} {s : State} (hr : sys.Run h s) {c : Nat}
    (hroot : .root c ∈ h) {e : Bool} (hret : .ret c true e ∈ h) {d : Nat} (ht : Clear h c d) :
    Settled s d := by
  have hi := inv_run hr
  have he := invE_run hr
  have hT := invT_run hr
  induction ht with
  | top n1 n2 =>
    exact returned_settled hr (he.rootLt c hroot) (by rw [he.ret c true e hret]; rfl) (.inl (he.root c hroot))
      n1 n2
  | @nested m d hm hn hs ih =>
    have hdone := settled_done hT ih
    -- a call that has returned and is not made with the group of its parent
    have settle : d < s.n → (s.op d).cpc.isRet = true → ¬ (∃ m', Own h m' d) → Settled s d := by
      intro hdn hdr hno
      rcases hs with hs | ⟨h3 | ⟨t, g, h3⟩, n1, n2⟩
      · exact absurd ⟨m, hs⟩ hno
      · exact returned_settled hr hdn hdr (.inl (he.root d h3)) n1 n2
      · exact returned_settled hr hdn hdr (.inr (he.kind d t .remote g h3)) n1 n2
    have hndCase : ∀ k g, .begin d (.hnd m) k g ∈ h → Settled s d := by
      intro k g hb
      have hdn := he.lt d _ _ _ hb
      have hthr := he.thr d _ _ _ hb
      have hmd : (s.op m).mpc = .done := by
        rcases hi.h.hnd d m hdn hthr with h3 | h3 <;> rcases hdone with h4 | ⟨h4, -⟩ <;> simp_all [MPc.over]
      have hdr := hi.h.hndOver d m hdn hthr (by rw [hmd]; rfl)
      by_cases hown : ∃ m', Own h m' d
      · obtain ⟨m', k', g', t', k'', hb', -, hm'⟩ := hown
        have := he.thr d _ _ _ hb'
        rw [hthr] at this
        cases this
        refine ⟨hdn, ?_⟩
        rcases ih with ⟨-, ⟨r, r1, r2, r3⟩ | ⟨h4, -⟩⟩
        · exact .inl ⟨r, r1, r2, .child r3 hdn hthr ((he.grp d _ _ _ hb').trans (he.grp m _ _ _ hm').symm)⟩
        · rw [hmd] at h4; cases h4
      · exact settle hdn hdr hown
    rcases hn with ⟨k, g, hb, -⟩ | ⟨k, g, t, k', hb, -, -⟩ | ⟨k, g, hb⟩
    · exact hndCase k g hb
    · exact hndCase k g hb
    · have hdn := he.lt d _ _ _ hb
      have hthr := he.thr d _ _ _ hb
      have hrem := accRemote_run hr d m hthr
      have hmn := ((hi.ok m).remote hrem).1
      have hmr : (s.op m).cpc.isRet = true := by
        rcases hdone with h4 | ⟨-, h4⟩
        · rw [hmn] at h4; cases h4
        · exact h4
      have hmt : (s.op m).cpc = .returned true := by
        cases hc : (s.op m).cpc with
        | returned ok =>
          cases ok with
          | true => rfl
          | false =>
            rcases he.failed m ih.1 hc with ⟨-, h5⟩ | h5
            · exact absurd hrem h5
            · exact absurd h5 (clear_remote he hm hrem)
        | _ => rw [hc] at hmr; cases hmr
      have hdr := hi.h.accEnd d m hdn hthr (hi.h.retRpc m hmt hrem)
      refine settle hdn hdr ?_
      rintro ⟨m', k', g', t', k'', hb', -, -⟩
      have := he.thr d _ _ _ hb'
      rw [hthr] at this
      cases this

theorem expired_run {h : List Ev} {s : State} (hr : sys.Run h s) :
    ∀ c, .expired c ∈ h → c < s.n ∧ (s.op c).cpc = .returned false := by
  refine hr.invariant (P := fun h s => ∀ c, .expired c ∈ h → c < s.n ∧ (s.op c).cpc = .returned false) ?_ ?_
  · intro c hc; cases hc
  · intro h s a s' evs hr hi hs
    replace hs : step s a = some (s', evs) := hs
    cases a with
    | begin t k a g w =>
      simp only [step] at hs
      split at hs
      case isFalse => cases hs
      cases hs
      intro c hc
      have hc' : .expired c ∈ h := by
        rcases List.mem_append.1 hc with hc | hc
        · exact hc
        · split at hc <;> simp at hc
      obtain ⟨h1, h2⟩ := hi c hc'
      exact ⟨by simp only; omega, by simp only [upd_of_ne _ _ (show c ≠ s.n by omega)]; exact h2⟩
    | _ => ct_cases hs <;> grind [upd_apply]

theorem clear_or {h : List Ev} {c d : Nat} (ht : Tree h c d) :
    Clear h c d ∨ (.timeout c ∈ h ∨ .expired c ∈ h) ∨ ∃ x, Tree h c x ∧ Tree h x d ∧ Broken h x := by
  induction ht with
  | top =>
    by_cases h1 : .timeout c ∈ h
    · exact .inr (.inl (.inl h1))
    · by_cases h2 : .expired c ∈ h
      · exact .inr (.inl (.inr h2))
      · exact .inl (.top h1 h2)
  | @nested m d hm hn ih =>
    rcases ih with ih | ih | ⟨x, h1, h2, h3⟩
    · by_cases ho : Own h m d
      · exact .inl (.nested ih hn (.inl ho))
      · by_cases hs : Secure h d
        · exact .inl (.nested ih hn (.inr hs))
        · refine .inr (.inr ⟨d, .nested hm hn, .top, ⟨m, hn, ho⟩, ?_⟩)
          by_cases h1 : .timeout d ∈ h
          · exact .inl h1
          · by_cases h2 : .expired d ∈ h
            · exact .inr (.inl h2)
            · refine .inr (.inr ⟨fun h3 => hs ⟨.inl h3, h1, h2⟩, fun t g h3 => hs ⟨.inr ⟨t, g, h3⟩, h1, h2⟩⟩)
    · exact .inr (.inl ih)
    · exact .inr (.inr ⟨x, h1, .nested h2 hn, h3⟩)

end Braid.CallTree
