import Verif.Wire.Accept

/-
The loops of the decoders read exactly what the grammar says.
-/
namespace Braid.Wire
open Spec

/-- A varint ends at its first byte without the high bit, so there is only one at the beginning of some bytes. -/
theorem shape_unique : ∀ (p q r r' : Bytes), Shape p → Shape q → p ++ r = q ++ r' → p = q
  | [], _, _, _, h, _, _ => h.elim
  | _, [], _, _, _, h, _ => h.elim
  | b :: p, c :: q, r, r', hp, hq, h => by
    rw [List.cons_append, List.cons_append] at h
    injection h with h1 h2
    subst h1
    by_cases hpn : p = []
    · by_cases hqn : q = []
      · rw [hpn, hqn]
      · subst hpn
        have h1 : b.toNat < 128 := hp
        have h2 := ((shape_cons hqn).1 hq).1
        omega
    · by_cases hqn : q = []
      · subst hqn
        have h1 : b.toNat < 128 := hq
        have h2 := ((shape_cons hpn).1 hp).1
        omega
      · rw [shape_unique p q r r' ((shape_cons hpn).1 hp).2 ((shape_cons hqn).1 hq).2 h2]

theorem wt_ne_four (f : Field) : wt f ≠ 4 := by cases f <;> simp [wt]

theorem toInt32_pos (n : Nat) : ¬ toInt32 n ≤ 0 ↔ 0 < n % 2 ^ 32 ∧ n % 2 ^ 32 < 2 ^ 31 := by
  unfold toInt32; split <;> omega

theorem toInt32_of (n : Nat) (h : n % 2 ^ 32 < 2 ^ 31) : toInt32 n = ((n % 2 ^ 32 : Nat) : Int) := by
  unfold toInt32; rw [if_pos h]

/-- The switch of a decoder does what the relation says. -/
def SwitchOk {M : Type} (d : Bytes) (field : M → Int → Nat → Int → Option (Res (M × Int)))
    (R : M → Field → M → Prop) : Prop :=
  ∀ (a r : Bytes) (m : M) (num w : Nat), d = a ++ r → 0 < num → num < 2 ^ 31 →
    match field m num w a.length with
    | some res => ∀ m' j, res = .ok (m', j) ↔
        ∃ (f : Field) (y r' : Bytes), r = y ++ r' ∧ Pay f y ∧ f.num = num ∧ wt f = w ∧ R m f m' ∧ j = (a.length : Int) + y.length
    | none => ∀ (f : Field) (m' : M), f.num = num → (R m f m' ↔ m' = m)

theorem slice_to_end (a r : Bytes) : slice (a ++ r) a.length (a ++ r).length = .ok r := by
  have h := slice_mid a r []
  rw [List.append_nil] at h
  rw [← h]
  simp

/-- One round of the loop. -/
theorem loop_round {M : Type} (field : M → Int → Nat → Int → Option (Res (M × Int))) (a t r : Bytes) (v n : Nat) (m : M)
    (ht : Varint t v) :
    unmarshalLoop field (a ++ (t ++ r)) (n + 1) a.length m =
      if v % 8 = 4 then .err .endGroup
      else if toInt32 (v / 8) ≤ 0 then .err .illegalTag
      else
        match field m (toInt32 (v / 8)) (v % 8) ((a.length : Int) + t.length) with
        | some res => res.bind fun (m, i) => unmarshalLoop field (a ++ (t ++ r)) n i m
        | none =>
          (skipRouter (t ++ r)).bind fun sk =>
          if sk < 0 ∨ wrapInt (a.length + sk) < 0 then .err .invalidLength
          else if wrapInt (a.length + sk) > (a ++ (t ++ r)).length then .err .eof
          else unmarshalLoop field (a ++ (t ++ r)) n (wrapInt (a.length + sk)) m := by
  have hlen := List.length_pos_iff.2 (vne ht)
  conv => lhs; unfold unmarshalLoop
  rw [if_pos (by simp; omega), (varint_iff a (t ++ r) v _).2 ⟨t, r, rfl, ht, rfl⟩]
  have hb : ∀ {α β : Type} (x : α) (f : α → Res β), (Res.ok x).bind f = f x := fun _ _ => rfl
  rw [hb]
  dsimp only
  rw [show v &&& 7 = v % 8 from Nat.and_two_pow_sub_one_eq_mod v 3,
    show v >>> 3 = v / 8 from Nat.shiftRight_eq_div_pow v 3, slice_to_end, hb]
  generalize field m (toInt32 (v / 8)) (v % 8) ((a.length : Int) + t.length) = o
  cases o <;> rfl

theorem readss_nil (fs : List Field) : Readss fs [] ↔ fs = [] := by
  cases fs with
  | nil => simp [Readss]
  | cons f fs =>
    simp only [reduceCtorEq, iff_false]
    rintro ⟨x, y, h, hx, -⟩
    exact reads_ne hx (List.append_eq_nil_iff.1 h.symm).1

theorem readss_cons (f : Field) (fs : List Field) (bs : Bytes) :
    Readss (f :: fs) bs ↔ ∃ x y, bs = x ++ y ∧ f.Reads x ∧ Readss fs y := Iff.rfl

theorem all_cons {M : Type} (R : M → Field → M → Prop) (m : M) (f : Field) (fs : List Field) (m' : M) :
    All R m (f :: fs) m' ↔ ∃ x, R m f x ∧ All R x fs m' := Iff.rfl

theorem top_cons (f : Field) (fs : List Field) : Top (f :: fs) ↔ (0 < f.num ∧ f.num < 2 ^ 31) ∧ Top fs := by
  unfold Top; simp

/-- What the loop accepts is a sequence of fields, from any point. -/
theorem loop_only {M : Type} (d : Bytes) (hd : d.length < 2 ^ 63) (field : M → Int → Nat → Int → Option (Res (M × Int)))
    (R : M → Field → M → Prop) (hf : SwitchOk d field R) (m' : M) (n : Nat) : ∀ (a r : Bytes) (m : M), d = a ++ r →
      unmarshalLoop field d n a.length m = .ok m' → ∃ fs, Readss fs r ∧ Top fs ∧ All R m fs m' := by
  induction n with
  | zero =>
    intro a r m h hrun
    cases hrun
  | succ n ih =>
    intro a r m h hrun
    by_cases hr : r = []
    · subst hr
      rw [List.append_nil] at h
      subst h
      rw [unmarshalLoop_end] at hrun
      cases hrun
      exact ⟨[], rfl, by simp [Top], rfl⟩
    · have hpos := List.length_pos_iff.2 hr
      have hv : ∃ v i, varint d a.length 0 0 = .ok (v, i) := by
        unfold unmarshalLoop at hrun
        rw [if_pos (by rw [h]; simp; omega), bind_ok] at hrun
        obtain ⟨⟨v, i⟩, hv, -⟩ := hrun
        exact ⟨v, i, hv⟩
      obtain ⟨v, i, hv⟩ := hv
      rw [h] at hv
      obtain ⟨t, r1, rfl, ht, rfl⟩ := (varint_iff _ _ _ _).1 hv
      rw [h, loop_round _ _ _ _ _ _ _ ht] at hrun
      split at hrun
      · cases hrun
      rename_i h4
      split at hrun
      · cases hrun
      rename_i hnum
      have hnum := (toInt32_pos _).1 hnum
      rw [toInt32_of _ hnum.2] at hrun
      have hsw := hf (a ++ t) r1 m (v / 8 % 2 ^ 32) (v % 8) (by rw [h]; simp) hnum.1 hnum.2
      rw [show ((a ++ t).length : Int) = (a.length : Int) + t.length by simp] at hsw
      have htag := tag_of ht
      generalize v / 8 % 2 ^ 32 = num at hsw hrun hnum htag
      split at hrun
      · rename_i res heq
        rw [heq] at hsw
        dsimp only at hsw
        rw [bind_ok] at hrun
        obtain ⟨⟨m1, j⟩, hres, hrun⟩ := hrun
        obtain ⟨f, y, r', rfl, hy, hfn, hfw, hR, rfl⟩ := (hsw m1 j).1 hres
        dsimp only at hrun
        rw [← h, show (a.length : Int) + t.length + y.length = ((a ++ (t ++ y)).length : Int) by simp; omega] at hrun
        obtain ⟨fs, h1, h2, h3⟩ := ih (a ++ (t ++ y)) r' m1 (by rw [h]; simp) hrun
        rw [← hfn, ← hfw] at htag
        rw [← hfn] at hnum
        refine ⟨f :: fs, (readss_cons _ _ _).2 ⟨t ++ y, r', by simp, (reads_iff _ _).2 ⟨t, y, rfl, htag, hy⟩, h1⟩,
          (top_cons _ _).2 ⟨hnum, h2⟩, (all_cons _ _ _ _ _).2 ⟨m1, hR, h3⟩⟩
      · rename_i heq
        rw [heq] at hsw
        dsimp only at hsw
        rw [bind_ok] at hrun
        obtain ⟨sk, hsk, hrun⟩ := hrun
        have hl1 : (t ++ r1).length < 2 ^ 63 := by rw [h] at hd; simp at hd ⊢; omega
        have hsafe := skipRouter_safe (t ++ r1) hl1
        rw [hsk] at hsafe
        have hsafe : 0 < sk ∧ sk < 2 ^ 63 := hsafe
        have hla : (a.length : Int) < 2 ^ 63 := by rw [h] at hd; simp at hd; omega
        split at hrun
        · cases hrun
        rename_i h0
        rcases wrapInt_add a.length sk (by omega) hla (by omega) hsafe.2 with hw | hw
        · rw [hw.2] at hrun
          split at hrun
          · cases hrun
          rename_i hle
          obtain ⟨f, x, r', hx, hfx, rfl⟩ := skipRouter_only _ _ hl1 hsk (by simp at hle ⊢; omega)
          obtain ⟨t', y, rfl, htag', hy⟩ := (reads_iff f x).1 hfx
          obtain ⟨v', hv', -, hfn⟩ := htag'
          have htt : t = t' := shape_unique t t' r1 (y ++ r') ht.1 hv'.1 (by simpa using hx)
          subst htt
          have hfn : f.num = num := by
            obtain ⟨w, hw1, -, hw2⟩ := htag
            rw [hfn, hw2, hv'.2.2, hw1.2.2]
          rw [← h, show (a.length : Int) + (t ++ y).length = ((a ++ (t ++ y)).length : Int) by simp] at hrun
          have hr' : r1 = y ++ r' := by simpa using hx
          subst hr'
          obtain ⟨fs, h1, h2, h3⟩ := ih (a ++ (t ++ y)) r' m (by rw [h]; simp) hrun
          have hR := (hsw f m hfn).2 rfl
          rw [← hfn] at hnum
          exact ⟨f :: fs, (readss_cons _ _ _).2 ⟨t ++ y, r', by simp, hfx, h1⟩,
            (top_cons _ _).2 ⟨hnum, h2⟩, (all_cons _ _ _ _ _).2 ⟨m, hR, h3⟩⟩
        · exact absurd (.inr hw) h0

/-- The loop accepts every sequence of fields, from any point. -/
theorem loop_all {M : Type} (d : Bytes) (hd : d.length < 2 ^ 63) (field : M → Int → Nat → Int → Option (Res (M × Int)))
    (R : M → Field → M → Prop) (hf : SwitchOk d field R) (m' : M) (fs : List Field) : ∀ (n : Nat) (a r : Bytes) (m : M),
      d = a ++ r → r.length < n → Readss fs r → Top fs → All R m fs m' →
      unmarshalLoop field d n a.length m = .ok m' := by
  induction fs with
  | nil =>
    intro n a r m h hn h1 h2 h3
    have h1 : r = [] := h1
    have h3 : m' = m := h3
    subst h1 h3
    rw [List.append_nil] at h
    subst h
    obtain ⟨n, rfl⟩ : ∃ k, n = k + 1 := ⟨n - 1, by simp at hn; omega⟩
    exact unmarshalLoop_end _ _ _ _
  | cons f fs ih =>
    intro n a r m h hn h1 h2 h3
    obtain ⟨x, y, rfl, hx, hy⟩ := (readss_cons _ _ _).1 h1
    obtain ⟨m1, hR, h3⟩ := (all_cons _ _ _ _ _).1 h3
    obtain ⟨hnum, h2⟩ := (top_cons _ _).1 h2
    obtain ⟨t, p, rfl, htag, hp⟩ := (reads_iff f x).1 hx
    obtain ⟨v, ht, hwt, hfn⟩ := htag
    have htl := List.length_pos_iff.2 (vne ht)
    have h4 : v % 8 ≠ 4 := by rw [← hwt]; exact wt_ne_four f
    rw [hfn] at hnum
    obtain ⟨n, rfl⟩ : ∃ k, n = k + 1 := ⟨n - 1, by simp at hn; omega⟩
    rw [h, List.append_assoc, loop_round _ _ _ _ _ _ _ ht, if_neg h4,
      if_neg ((toInt32_pos (v / 8)).2 hnum), toInt32_of (v / 8) hnum.2]
    have hsw := hf (a ++ t) (p ++ y) m (v / 8 % 2 ^ 32) (v % 8) (by rw [h]; simp) hnum.1 hnum.2
    rw [show ((a ++ t).length : Int) = (a.length : Int) + t.length by simp] at hsw
    have hrec := ih n (a ++ (t ++ p)) y m1 (by rw [h]; simp) (by simp at hn; omega) hy h2 h3
    generalize v / 8 % 2 ^ 32 = num at hsw hnum hfn
    split
    · rename_i res heq
      rw [heq] at hsw
      dsimp only at hsw
      have hb : ∀ {α β : Type} (x : α) (f : α → Res β), (Res.ok x).bind f = f x := fun _ _ => rfl
      rw [(hsw m1 _).2 ⟨f, p, y, rfl, hp, hfn, hwt, hR, rfl⟩, hb]
      dsimp only
      rw [show a ++ (t ++ (p ++ y)) = d by rw [h]; simp,
        show (a.length : Int) + t.length + p.length = ((a ++ (t ++ p)).length : Int) by simp; omega]
      exact hrec
    · rename_i heq
      rw [heq] at hsw
      dsimp only at hsw
      have hm := (hsw f m1 hfn).1 hR
      subst hm
      have hl : ((t ++ p) ++ y).length < 2 ^ 63 := by rw [h] at hd; simp at hd ⊢; omega
      have hl2 : (a.length : Int) + (t ++ p).length < 2 ^ 63 := by rw [h] at hd; simp at hd ⊢; omega
      have hb : ∀ {α β : Type} (x : α) (f : α → Res β), (Res.ok x).bind f = f x := fun _ _ => rfl
      rw [show t ++ (p ++ y) = (t ++ p) ++ y by simp, skipRouter_reads f (t ++ p) y hx hl, hb]
      rw [wrapInt_of _ (by omega) hl2, if_neg (by omega), if_neg (by simp; omega),
        show a ++ ((t ++ p) ++ y) = d by rw [h],
        show (a.length : Int) + (t ++ p).length = ((a ++ (t ++ p)).length : Int) by simp]
      exact hrec

end Braid.Wire
