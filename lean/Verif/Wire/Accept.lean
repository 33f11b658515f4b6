import Verif.Wire.Grammar
import Verif.Wire.Dec
import Verif.Wire.Safe

/-
The decoders read exactly what the grammar says.
-/
namespace Braid.Wire
open Spec

theorem shape_cons {b : UInt8} {bs : Bytes} (h : bs ≠ []) : Shape (b :: bs) ↔ 128 ≤ b.toNat ∧ Shape bs := by
  cases bs with
  | nil => exact absurd rfl h
  | cons c cs => rfl

theorem shape_ne {bs : Bytes} (h : Shape bs) : bs ≠ [] := by rintro rfl; exact h

/-- The bits of a new group are above those collected so far. -/
theorem or_shift_mod (x y s : Nat) (hx : x < 2 ^ s) (hs : s ≤ 64) :
    x ||| (y <<< s) % 2 ^ 64 = x + y * 2 ^ s % 2 ^ 64 := by
  have h : (y <<< s) % 2 ^ 64 = 2 ^ s * (y % 2 ^ (64 - s)) := by
    rw [Nat.shiftLeft_eq]
    have e : (2 : Nat) ^ 64 = 2 ^ s * 2 ^ (64 - s) := by rw [← Nat.pow_add]; congr 1; omega
    rw [e, Nat.mul_comm y, Nat.mul_mod_mul_left]
  rw [h, Nat.or_comm, ← Nat.two_pow_add_eq_or_of_lt hx, ← h, Nat.shiftLeft_eq]
  omega

/-- Seven bits more. -/
theorem acc_step (x b g s : Nat) (hs : s ≤ 57) (hb : b < 128) :
    (x + b * 2 ^ s % 2 ^ 64) + g * 2 ^ (s + 7) % 2 ^ 64 = x + (b + 128 * g) * 2 ^ s % 2 ^ 64 := by
  have e1 : (2 : Nat) ^ 64 = 2 ^ s * (128 * 2 ^ (57 - s)) := by
    rw [show (128 : Nat) = 2 ^ 7 from rfl, ← Nat.pow_add, ← Nat.pow_add]; congr 1; omega
  have hk : 0 < 2 ^ (57 - s) := Nat.two_pow_pos _
  have e2 : b * 2 ^ s % 2 ^ 64 = 2 ^ s * b := by
    rw [e1, Nat.mul_comm b, Nat.mul_mod_mul_left, Nat.mod_eq_of_lt (by
      have := Nat.mul_le_mul_left 128 hk; omega)]
  have e3 : g * 2 ^ (s + 7) % 2 ^ 64 = 2 ^ s * (128 * (g % 2 ^ (57 - s))) := by
    rw [e1, show g * 2 ^ (s + 7) = 2 ^ s * (128 * g) by
      rw [Nat.pow_add]; simp only [Nat.mul_comm, Nat.mul_left_comm], Nat.mul_mod_mul_left, Nat.mul_mod_mul_left]
  have e4 : (b + 128 * g) * 2 ^ s % 2 ^ 64 = 2 ^ s * (b + 128 * (g % 2 ^ (57 - s))) := by
    rw [e1, Nat.mul_comm _ (2 ^ s), Nat.mul_mod_mul_left, Nat.mod_mul]
    congr 2
    · omega
    · congr 2; omega
  rw [e2, e3, e4, Nat.mul_add, Nat.add_assoc]

theorem or_group (x s : Nat) (b : UInt8) (hx : x < 2 ^ s) (hs : s ≤ 64) :
    x ||| ((b.toNat &&& 0x7f) <<< s) % 2 ^ 64 = x + b.toNat % 128 * 2 ^ s % 2 ^ 64 := by
  rw [and_127, or_shift_mod _ _ _ hx hs]

/-- The varint loop, from any point. -/
theorem varint_iff_aux : ∀ (r a : Bytes) (s x : Nat) (v : Nat) (j : Int), x < 2 ^ s → s % 7 = 0 →
    (varint (a ++ r) a.length s x = .ok (v, j) ↔
      ∃ p r', r = p ++ r' ∧ Shape p ∧ s + 7 * p.length ≤ 70 ∧ v = x + groups p * 2 ^ s % 2 ^ 64 ∧
        j = (a.length : Int) + p.length)
  | [], a, s, x, v, j, hx, hs => by
    constructor
    · intro h
      unfold varint at h
      split at h
      · cases h
      · simp at h
    · rintro ⟨p, r', h, hp, -⟩
      exact absurd (List.append_eq_nil_iff.1 h.symm).1 (shape_ne hp)
  | b :: r, a, s, x, v, j, hx, hs => by
    by_cases h64 : s ≥ 64
    · constructor
      · intro h; unfold varint at h; rw [if_pos h64] at h; cases h
      · rintro ⟨p, r', -, hp, hl, -⟩
        have := List.length_pos_iff.2 (shape_ne hp)
        omega
    · have hstep : varint (a ++ b :: r) a.length s x =
          if b.toNat < 0x80 then .ok (x + b.toNat % 128 * 2 ^ s % 2 ^ 64, (a.length : Int) + 1)
          else varint (a ++ b :: r) ((a.length : Int) + 1) (s + 7) (x + b.toNat % 128 * 2 ^ s % 2 ^ 64) := by
        conv => lhs; unfold varint
        rw [if_neg h64, if_neg (by simp; omega), idx_mid]
        simp only [Res.bind]
        rw [or_group _ _ _ hx (by omega)]
      rw [hstep]
      by_cases hb : b.toNat < 128
      · rw [if_pos hb]
        constructor
        · intro h
          cases h
          refine ⟨[b], r, rfl, hb, by simp; omega, by simp [groups], by simp⟩
        · rintro ⟨p, r', he, hp, hl, rfl, rfl⟩
          cases p with
          | nil => exact hp.elim
          | cons c p =>
            rw [List.cons_append] at he
            injection he with h1 h2
            subst h1
            by_cases hpn : p = []
            · subst hpn; simp [groups]
            · have := ((shape_cons hpn).1 hp).1; omega
      · rw [if_neg hb]
        have e : a ++ b :: r = (a ++ [b]) ++ r := by simp
        have ei : (a.length : Int) + 1 = ((a ++ [b]).length : Int) := by simp
        by_cases h57 : s ≤ 57
        · have hx' : x + b.toNat % 128 * 2 ^ s % 2 ^ 64 < 2 ^ (s + 7) := by
            have h1 : b.toNat % 128 * 2 ^ s % 2 ^ 64 ≤ b.toNat % 128 * 2 ^ s := Nat.mod_le _ _
            have h2 : b.toNat % 128 * 2 ^ s ≤ 127 * 2 ^ s := Nat.mul_le_mul_right _ (by omega)
            have h3 : 2 ^ (s + 7) = 128 * 2 ^ s := by rw [Nat.pow_add]; omega
            omega
          rw [e, ei, varint_iff_aux r (a ++ [b]) (s + 7) _ v j hx' (by omega)]
          constructor
          · rintro ⟨p, r', rfl, hp, hl, rfl, rfl⟩
            refine ⟨b :: p, r', rfl, (shape_cons (shape_ne hp)).2 ⟨by omega, hp⟩, by simp; omega, ?_, by simp; omega⟩
            rw [acc_step _ _ _ _ h57 (by omega)]
            rfl
          · rintro ⟨p, r', he, hp, hl, rfl, rfl⟩
            cases p with
            | nil => exact hp.elim
            | cons c p =>
              rw [List.cons_append] at he
              injection he with h1 h2
              subst h1
              have hpn : p ≠ [] := by rintro rfl; exact hb hp
              refine ⟨p, r', h2, ((shape_cons hpn).1 hp).2, by simp at hl; omega, ?_, by simp; omega⟩
              rw [acc_step _ _ _ _ h57 (by omega)]
              rfl
        · constructor
          · intro h
            unfold varint at h
            rw [if_pos (by omega)] at h
            cases h
          · rintro ⟨p, r', he, hp, hl, -⟩
            cases p with
            | nil => exact hp.elim
            | cons c p =>
              rw [List.cons_append] at he
              injection he with h1 h2
              subst h1
              have hpn : p ≠ [] := by rintro rfl; exact hb hp
              have := List.length_pos_iff.2 hpn
              simp at hl
              omega

/-- Reading a varint. -/
theorem varint_iff (a r : Bytes) (v : Nat) (j : Int) : varint (a ++ r) a.length 0 0 = .ok (v, j) ↔
    ∃ p r', r = p ++ r' ∧ Varint p v ∧ j = (a.length : Int) + p.length := by
  rw [varint_iff_aux r a 0 0 v j (by decide) rfl]
  constructor
  · rintro ⟨p, r', h1, h2, h3, h4, h5⟩
    exact ⟨p, r', h1, ⟨h2, by omega, by simpa using h4⟩, h5⟩
  · rintro ⟨p, r', h1, ⟨h2, h3, h4⟩, h5⟩
    exact ⟨p, r', h1, h2, by omega, by simpa using h4, h5⟩

/-- Skipping a varint. -/
theorem skipVarint_iff_aux : ∀ (r a : Bytes) (s : Nat) (j : Int), s % 7 = 0 →
    (skipVarint (a ++ r) a.length s = .ok j ↔
      ∃ p r', r = p ++ r' ∧ Shape p ∧ s + 7 * p.length ≤ 70 ∧ j = (a.length : Int) + p.length)
  | [], a, s, j, hs => by
    constructor
    · intro h
      unfold skipVarint at h
      split at h
      · cases h
      · simp at h
    · rintro ⟨p, r', h, hp, -⟩
      exact absurd (List.append_eq_nil_iff.1 h.symm).1 (shape_ne hp)
  | b :: r, a, s, j, hs => by
    by_cases h64 : s ≥ 64
    · constructor
      · intro h; unfold skipVarint at h; rw [if_pos h64] at h; cases h
      · rintro ⟨p, r', -, hp, hl, -⟩
        have := List.length_pos_iff.2 (shape_ne hp)
        omega
    · have hstep : skipVarint (a ++ b :: r) a.length s =
          if b.toNat < 0x80 then .ok ((a.length : Int) + 1)
          else skipVarint (a ++ b :: r) ((a.length : Int) + 1) (s + 7) := by
        conv => lhs; unfold skipVarint
        rw [if_neg h64, if_neg (by simp; omega), idx_mid]
        simp only [Res.bind]
      rw [hstep]
      by_cases hb : b.toNat < 128
      · rw [if_pos hb]
        constructor
        · intro h
          cases h
          exact ⟨[b], r, rfl, hb, by simp; omega, by simp⟩
        · rintro ⟨p, r', he, hp, hl, rfl⟩
          cases p with
          | nil => exact hp.elim
          | cons c p =>
            rw [List.cons_append] at he
            injection he with h1 h2
            subst h1
            by_cases hpn : p = []
            · subst hpn; simp
            · have := ((shape_cons hpn).1 hp).1; omega
      · rw [if_neg hb]
        have e : a ++ b :: r = (a ++ [b]) ++ r := by simp
        have ei : (a.length : Int) + 1 = ((a ++ [b]).length : Int) := by simp
        rw [e, ei, skipVarint_iff_aux r (a ++ [b]) (s + 7) j (by omega)]
        constructor
        · rintro ⟨p, r', rfl, hp, hl, rfl⟩
          exact ⟨b :: p, r', rfl, (shape_cons (shape_ne hp)).2 ⟨by omega, hp⟩, by simp; omega, by simp; omega⟩
        · rintro ⟨p, r', he, hp, hl, rfl⟩
          cases p with
          | nil => exact hp.elim
          | cons c p =>
            rw [List.cons_append] at he
            injection he with h1 h2
            subst h1
            have hpn : p ≠ [] := by rintro rfl; exact hb hp
            exact ⟨p, r', h2, ((shape_cons hpn).1 hp).2, by simp at hl; omega, by simp; omega⟩

theorem skipVarint_iff (a r : Bytes) (j : Int) : skipVarint (a ++ r) a.length 0 = .ok j ↔
    ∃ p r' v, r = p ++ r' ∧ Varint p v ∧ j = (a.length : Int) + p.length := by
  rw [skipVarint_iff_aux r a 0 j rfl]
  constructor
  · rintro ⟨p, r', h1, h2, h3, h5⟩
    exact ⟨p, r', _, h1, ⟨h2, by omega, rfl⟩, h5⟩
  · rintro ⟨p, r', v, h1, ⟨h2, h3, h4⟩, h5⟩
    exact ⟨p, r', h1, h2, by omega, h5⟩


theorem bind_ok {α β : Type} {r : Res α} {f : α → Res β} {b : β} : r.bind f = .ok b ↔ ∃ a, r = .ok a ∧ f a = .ok b := by
  cases r <;> simp [Res.bind]

theorem toInt64_nonneg {n : Nat} (hn : n < 2 ^ 64) : ¬ toInt64 n < 0 ↔ n < 2 ^ 63 := by
  unfold toInt64; split <;> omega

theorem toInt64_of {n : Nat} (hn : n < 2 ^ 63) : toInt64 n = n := by
  unfold toInt64; rw [if_pos hn]

theorem vlt {p : Bytes} {v : Nat} (h : Varint p v) : v < 2 ^ 64 := by
  rw [h.2.2]; exact Nat.mod_lt _ (by decide)

theorem vne {p : Bytes} {v : Nat} (h : Varint p v) : p ≠ [] := shape_ne h.1

/-- The bytes from a position on, cut at a length. -/
theorem cut (r : Bytes) (n : Nat) (h : n ≤ r.length) : ∃ s r', r = s ++ r' ∧ s.length = n :=
  ⟨r.take n, r.drop n, (List.take_append_drop n r).symm, by simp [h]⟩

/-- Reading bytes with their length. -/
theorem bytesField_iff (a r : Bytes) (s : Bytes) (j : Int) (hd : (a ++ r).length < 2 ^ 63) :
    bytesField (a ++ r) a.length = .ok (s, j) ↔
      ∃ p r', r = p ++ (s ++ r') ∧ Varint p s.length ∧ j = (a.length : Int) + p.length + s.length := by
  unfold bytesField
  rw [bind_ok]
  constructor
  · rintro ⟨⟨n, i⟩, hv, h⟩
    obtain ⟨p, r1, rfl, hp, rfl⟩ := (varint_iff a r n i).1 hv
    have hn := (vlt hp)
    dsimp only at h
    split at h
    · cases h
    rename_i h0
    have hn63 := (toInt64_nonneg hn).1 h0
    rw [toInt64_of hn63] at h
    split at h
    · cases h
    rename_i h1
    have hw := wrapInt_add ((a.length : Int) + p.length) n (by omega) (by simp at hd; omega) (by omega) (by omega)
    have hw : wrapInt ((a.length : Int) + p.length + n) = (a.length : Int) + p.length + n := by
      rcases hw with h | h
      · exact h.2
      · exact absurd h h1
    rw [hw] at h
    split at h
    · cases h
    rename_i h2
    have hle : n ≤ r1.length := by simp at h2; omega
    obtain ⟨s', r', rfl, hs'⟩ := cut r1 n hle
    rw [show a ++ (p ++ (s' ++ r')) = (a ++ p) ++ (s' ++ r') by simp,
      show (a.length : Int) + p.length = ((a ++ p).length : Int) by simp,
      show (((a ++ p).length : Int) + n) = ((a ++ p).length : Int) + s'.length by omega, slice_mid] at h
    simp only [Res.bind] at h
    cases h
    exact ⟨p, r', rfl, hs' ▸ hp, by simp⟩
  · rintro ⟨p, r', rfl, hp, rfl⟩
    refine ⟨(s.length, (a.length : Int) + p.length), (varint_iff _ _ _ _).2 ⟨p, _, rfl, hp, rfl⟩, ?_⟩
    simp at hd
    dsimp only
    rw [toInt64_of (by omega), if_neg (by omega), wrapInt_of _ (by omega) (by omega), if_neg (by omega),
      if_neg (by simp; omega)]
    rw [show a ++ (p ++ (s ++ r')) = (a ++ p) ++ (s ++ r') by simp,
      show (a.length : Int) + p.length = ((a ++ p).length : Int) by simp, slice_mid]
    rfl

/-! ### Skipping -/

/-- One round of the skip loop. -/
theorem skipLoop_round (a t r : Bytes) (v n depth : Nat) (ht : Varint t v) :
    skipLoop (a ++ (t ++ r)) (n + 1) a.length depth =
      (skipOne (a ++ (t ++ r)) (v % 8) ((a.length : Int) + t.length) depth).bind fun (i, depth) =>
      if i < 0 then .err .invalidLength
      else if depth = 0 then .ok i
      else skipLoop (a ++ (t ++ r)) n i depth := by
  have hlen := List.length_pos_iff.2 (vne ht)
  conv => lhs; unfold skipLoop
  rw [if_pos (by simp; omega), (varint_iff a (t ++ r) v _).2 ⟨t, r, rfl, ht, rfl⟩]
  simp only [Res.bind]
  rw [show v &&& 7 = v % 8 from Nat.and_two_pow_sub_one_eq_mod v 3]

/-- What follows the tag of a field. -/
def Pay : Field → Bytes → Prop
  | .varint _ v, y => Varint y v
  | .fixed64 _ s, y => y = s ∧ s.length = 8
  | .len _ s, y => ∃ p, y = p ++ s ∧ Varint p s.length
  | .group _ fs, y => ∃ b e n', y = b ++ e ∧ Readss fs b ∧ Tag e n' 4
  | .fixed32 _ s, y => y = s ∧ s.length = 4

theorem reads_iff (f : Field) (x : Bytes) : f.Reads x ↔ ∃ t y, x = t ++ y ∧ Tag t f.num (wt f) ∧ Pay f y := by
  cases f <;> simp only [Field.Reads, Pay, Field.num, wt]
  · constructor
    · rintro ⟨t, h1, h2, h3⟩; exact ⟨t, _, h1, h2, rfl, h3⟩
    · rintro ⟨t, _, h1, h2, rfl, h3⟩; exact ⟨t, h1, h2, h3⟩
  · constructor
    · rintro ⟨t, p, h1, h2, h3⟩; exact ⟨t, _, h1, h2, p, rfl, h3⟩
    · rintro ⟨t, _, h1, h2, p, rfl, h3⟩; exact ⟨t, p, h1, h2, h3⟩
  · constructor
    · rintro ⟨t, b, e, n', h1, h2, h3, h4⟩; exact ⟨t, _, h1, h2, b, e, n', rfl, h3, h4⟩
    · rintro ⟨t, _, h1, h2, b, e, n', rfl, h3, h4⟩; exact ⟨t, b, e, n', h1, h2, h3, h4⟩
  · constructor
    · rintro ⟨t, h1, h2, h3⟩; exact ⟨t, _, h1, h2, rfl, h3⟩
    · rintro ⟨t, _, h1, h2, rfl, h3⟩; exact ⟨t, h1, h2, h3⟩

theorem tag_ne {t : Bytes} {n w : Nat} (h : Tag t n w) : t ≠ [] := by
  obtain ⟨v, hv, -⟩ := h; exact vne hv

theorem reads_ne {f : Field} {x : Bytes} (h : f.Reads x) : x ≠ [] := by
  obtain ⟨t, y, rfl, ht, -⟩ := (reads_iff f x).1 h
  intro e
  exact tag_ne ht (List.append_eq_nil_iff.1 e).1

mutual
theorem toks_le_reads : ∀ (f : Field) (x : Bytes), f.Reads x → toks f ≤ x.length
  | .varint n v, x, h => by
    have := List.length_pos_iff.2 (reads_ne h); simp only [toks]; omega
  | .fixed64 n s, x, h => by
    have := List.length_pos_iff.2 (reads_ne h); simp only [toks]; omega
  | .len n s, x, h => by
    have := List.length_pos_iff.2 (reads_ne h); simp only [toks]; omega
  | .group n fs, x, h => by
    obtain ⟨t, b, e, n', rfl, ht, hb, he⟩ := h
    have h1 := List.length_pos_iff.2 (tag_ne ht)
    have h2 := List.length_pos_iff.2 (tag_ne he)
    have h3 := tokss_le_reads fs b hb
    simp only [toks, List.length_append]; omega
  | .fixed32 n s, x, h => by
    have := List.length_pos_iff.2 (reads_ne h); simp only [toks]; omega
theorem tokss_le_reads : ∀ (fs : List Field) (x : Bytes), Readss fs x → tokss fs ≤ x.length
  | [], x, h => by simp [tokss]
  | f :: fs, x, h => by
    obtain ⟨y, z, rfl, h1, h2⟩ := h
    have := toks_le_reads f y h1
    have := tokss_le_reads fs z h2
    simp only [tokss, List.length_append]; omega
end

mutual
/-- A field is skipped whole. -/
theorem skip_reads : ∀ (f : Field) (x : Bytes), f.Reads x → ∀ (a r : Bytes) (n depth : Nat),
    (a ++ (x ++ r)).length < 2 ^ 63 →
    skipLoop (a ++ (x ++ r)) (n + toks f) a.length depth = cont (a ++ (x ++ r)) n ((a.length : Int) + x.length) depth
  | .varint num v, x, h, a, r, n, depth, hl => by
    obtain ⟨t, p, rfl, ⟨w, ht, hw, -⟩, hp⟩ := h
    simp only [toks]
    rw [show a ++ (t ++ p ++ r) = a ++ (t ++ (p ++ r)) by simp, skipLoop_round _ _ _ _ _ _ ht, ← hw, skipOne_0,
      show a ++ (t ++ (p ++ r)) = (a ++ t) ++ (p ++ r) by simp,
      show (a.length : Int) + t.length = ((a ++ t).length : Int) by simp,
      (skipVarint_iff (a ++ t) (p ++ r) _).2 ⟨p, r, v, rfl, hp, rfl⟩]
    simp only [Res.bind]
    rw [if_neg (by omega)]
    unfold cont
    rw [show ((a ++ t).length : Int) + p.length = (a.length : Int) + (t ++ p).length by simp; omega]
  | .fixed64 num s, x, h, a, r, n, depth, hl => by
    obtain ⟨t, rfl, ⟨w, ht, hw, -⟩, hs⟩ := h
    simp only [toks]
    simp at hl
    rw [show a ++ (t ++ s ++ r) = a ++ (t ++ (s ++ r)) by simp, skipLoop_round _ _ _ _ _ _ ht, ← hw, skipOne_1,
      wrapInt_of _ (by omega) (by omega)]
    simp only [Res.bind]
    rw [if_neg (by omega)]
    unfold cont
    rw [show (a.length : Int) + t.length + 8 = (a.length : Int) + (t ++ s).length by simp; omega]
  | .len num s, x, h, a, r, n, depth, hl => by
    obtain ⟨t, p, rfl, ⟨w, ht, hw, -⟩, hp⟩ := h
    simp only [toks]
    simp at hl
    rw [show a ++ (t ++ (p ++ s) ++ r) = a ++ (t ++ (p ++ (s ++ r))) by simp, skipLoop_round _ _ _ _ _ _ ht, ← hw]
    have hv : varint (a ++ (t ++ (p ++ (s ++ r)))) ((a.length : Int) + t.length) 0 0
        = .ok (s.length, (a.length : Int) + t.length + p.length) := by
      rw [show a ++ (t ++ (p ++ (s ++ r))) = (a ++ t) ++ (p ++ (s ++ r)) by simp,
        show (a.length : Int) + t.length = ((a ++ t).length : Int) by simp]
      exact (varint_iff _ _ _ _).2 ⟨p, _, rfl, hp, rfl⟩
    rw [skipOne_2 _ _ _ _ _ hv (by rw [toInt64_of (by omega)]; omega), toInt64_of (by omega),
      wrapInt_of _ (by omega) (by omega)]
    simp only [Res.bind]
    rw [if_neg (by omega)]
    unfold cont
    rw [show (a.length : Int) + t.length + p.length + s.length = (a.length : Int) + (t ++ (p ++ s)).length by simp; omega]
  | .fixed32 num s, x, h, a, r, n, depth, hl => by
    obtain ⟨t, rfl, ⟨w, ht, hw, -⟩, hs⟩ := h
    simp only [toks]
    simp at hl
    rw [show a ++ (t ++ s ++ r) = a ++ (t ++ (s ++ r)) by simp, skipLoop_round _ _ _ _ _ _ ht, ← hw,
      show skipOne (a ++ (t ++ (s ++ r))) 5 ((a.length : Int) + t.length) depth
        = .ok (wrapInt ((a.length : Int) + t.length + 4), depth) from rfl, wrapInt_of _ (by omega) (by omega)]
    simp only [Res.bind]
    rw [if_neg (by omega)]
    unfold cont
    rw [show (a.length : Int) + t.length + 4 = (a.length : Int) + (t ++ s).length by simp; omega]
  | .group num fs, x, h, a, r, n, depth, hl => by
    obtain ⟨t, b, e, n', rfl, ⟨w, ht, hw, -⟩, hb, ⟨w', he, hw', -⟩⟩ := h
    simp only [toks]
    simp at hl
    rw [show n + (tokss fs + 2) = (n + 1 + tokss fs) + 1 by omega,
      show a ++ (t ++ (b ++ e) ++ r) = a ++ (t ++ (b ++ (e ++ r))) by simp, skipLoop_round _ _ _ _ _ _ ht, ← hw,
      show skipOne (a ++ (t ++ (b ++ (e ++ r)))) 3 ((a.length : Int) + t.length) depth
        = .ok ((a.length : Int) + t.length, depth + 1) from rfl]
    simp only [Res.bind]
    rw [if_neg (by omega), if_neg (by omega)]
    have h1 := skips_reads fs b hb (a ++ t) (e ++ r) (n + 1) depth (by simp; omega)
    rw [show a ++ (t ++ (b ++ (e ++ r))) = (a ++ t) ++ (b ++ (e ++ r)) by simp,
      show (a.length : Int) + t.length = ((a ++ t).length : Int) by simp, h1,
      show (a ++ t) ++ (b ++ (e ++ r)) = (a ++ t ++ b) ++ (e ++ r) by simp,
      show ((a ++ t).length : Int) + b.length = ((a ++ t ++ b).length : Int) by simp; omega,
      skipLoop_round _ _ _ _ _ _ he, ← hw',
      show skipOne (a ++ t ++ b ++ (e ++ r)) 4 (((a ++ t ++ b).length : Int) + e.length) (depth + 1)
        = .ok (((a ++ t ++ b).length : Int) + e.length, depth) from rfl]
    simp only [Res.bind]
    rw [if_neg (by omega)]
    unfold cont
    rw [show ((a ++ t ++ b).length : Int) + e.length = (a.length : Int) + (t ++ (b ++ e)).length by simp; omega]
/-- Fields inside a group are skipped whole. -/
theorem skips_reads : ∀ (fs : List Field) (x : Bytes), Readss fs x → ∀ (a r : Bytes) (n depth : Nat),
    (a ++ (x ++ r)).length < 2 ^ 63 →
    skipLoop (a ++ (x ++ r)) (n + tokss fs) a.length (depth + 1)
      = skipLoop (a ++ (x ++ r)) n ((a.length : Int) + x.length) (depth + 1)
  | [], x, h, a, r, n, depth, hl => by
    have h : x = [] := h
    subst h
    simp [tokss]
  | f :: fs, x, h, a, r, n, depth, hl => by
    obtain ⟨y, z, rfl, hy, hz⟩ := h
    simp only [tokss]
    have h1 := skip_reads f y hy a (z ++ r) (n + tokss fs) (depth + 1) (by simp at hl ⊢; omega)
    rw [show a ++ (y ++ z ++ r) = a ++ (y ++ (z ++ r)) by simp,
      show n + (toks f + tokss fs) = n + tokss fs + toks f by omega, h1]
    unfold cont
    rw [if_neg (by omega), show a ++ (y ++ (z ++ r)) = (a ++ y) ++ (z ++ r) by simp,
      show (a.length : Int) + y.length = ((a ++ y).length : Int) by simp,
      skips_reads fs z hz (a ++ y) r n depth (by simp at hl ⊢; omega)]
    congr 1
    simp; omega
end

/-- `skipRouter` skips a field. -/
theorem skipRouter_reads (f : Field) (x r : Bytes) (h : f.Reads x) (hl : (x ++ r).length < 2 ^ 63) :
    skipRouter (x ++ r) = .ok (x.length : Int) := by
  have h1 := skip_reads f x h [] r ((x ++ r).length + 1 - toks f) 0 (by simpa using hl)
  have h2 := toks_le_reads f x h
  unfold skipRouter
  rw [show (x ++ r).length + 1 - toks f + toks f = (x ++ r).length + 1 by simp; omega] at h1
  simpa [cont] using h1

/-- Bytes that close `k` groups. -/
def Closes : Nat → Bytes → Prop
  | 0, x => x = []
  | k + 1, x => ∃ fs b e n' y, x = b ++ (e ++ y) ∧ Readss fs b ∧ Tag e n' 4 ∧ Closes k y

theorem tag_of {t : Bytes} {v : Nat} (h : Varint t v) : Tag t (v / 8 % 2 ^ 32) (v % 8) := ⟨v, h, rfl, rfl⟩

/-- What one round of the skip loop reads. -/
theorem skipOne_reads (a t r : Bytes) (v depth : Nat) (i : Int) (depth' : Nat) (ht : Varint t v)
    (hl : (a ++ (t ++ r)).length < 2 ^ 63)
    (h : skipOne (a ++ (t ++ r)) (v % 8) ((a.length : Int) + t.length) depth = .ok (i, depth')) (h0 : ¬ i < 0)
    (hi : i ≤ (a ++ (t ++ r)).length) :
    (depth' = depth ∧ ∃ (f : Field) (y r' : Bytes), r = y ++ r' ∧ f.Reads (t ++ y) ∧ i = (a.length : Int) + (t ++ y).length) ∨
    (v % 8 = 3 ∧ depth' = depth + 1 ∧ i = (a.length : Int) + t.length) ∨
    (v % 8 = 4 ∧ depth = depth' + 1 ∧ i = (a.length : Int) + t.length) := by
  have htag := tag_of ht
  have hw : v % 8 < 8 := Nat.mod_lt _ (by decide)
  have hl' := hl
  simp at hl'
  simp only [List.length_append] at hi
  generalize v % 8 = w at *
  have hcases : w = 0 ∨ w = 1 ∨ w = 2 ∨ w = 3 ∨ w = 4 ∨ w = 5 ∨ w = 6 ∨ w = 7 := by omega
  rcases hcases with rfl | rfl | rfl | rfl | rfl | rfl | rfl | rfl
  · rw [skipOne_0, show a ++ (t ++ r) = (a ++ t) ++ r by simp,
      show (a.length : Int) + t.length = ((a ++ t).length : Int) by simp, bind_ok] at h
    obtain ⟨k, hk, h⟩ := h
    cases h
    obtain ⟨p, r', u, rfl, hp, rfl⟩ := (skipVarint_iff _ _ _).1 hk
    exact .inl ⟨rfl, .varint _ u, p, r', rfl, ⟨t, p, rfl, htag, hp⟩, by simp; omega⟩
  · have h' : Res.ok (wrapInt ((a.length : Int) + t.length + 8), depth) = .ok (i, depth') := h
    rcases wrapInt_add ((a.length : Int) + t.length) 8 (by omega) (by omega) (by omega) (by omega) with hw | hw
    · rw [hw.2] at h'
      cases h'
      obtain ⟨s, r', rfl, hs⟩ := cut r 8 (by omega)
      exact .inl ⟨rfl, .fixed64 _ s, s, r', rfl, ⟨t, rfl, htag, hs⟩, by simp; omega⟩
    · injection h' with h'; injection h' with h1 h2; rw [h1] at hw; exact absurd hw h0
  · have h' : ((varint (a ++ (t ++ r)) ((a.length : Int) + t.length) 0 0).bind fun (n, i) =>
        if toInt64 n < 0 then .err .invalidLength else .ok (wrapInt (i + toInt64 n), depth)) = .ok (i, depth') := h
    rw [bind_ok] at h'
    obtain ⟨⟨n, k⟩, hk, h'⟩ := h'
    rw [show a ++ (t ++ r) = (a ++ t) ++ r by simp,
      show (a.length : Int) + t.length = ((a ++ t).length : Int) by simp] at hk
    obtain ⟨p, r1, rfl, hp, rfl⟩ := (varint_iff _ _ _ _).1 hk
    dsimp only at h'
    split at h'
    · cases h'
    rename_i hn
    have hn63 := (toInt64_nonneg (vlt hp)).1 hn
    rw [toInt64_of hn63] at h'
    simp at hl' hi
    rcases wrapInt_add (((a ++ t).length : Int) + p.length) n (by omega) (by simp; omega) (by omega) (by omega) with hw | hw
    · rw [hw.2] at h'
      cases h'
      simp at hi
      obtain ⟨s, r', rfl, hs⟩ := cut r1 n (by omega)
      exact .inl ⟨rfl, .len _ s, p ++ s, r', by simp, ⟨t, p, rfl, htag, hs ▸ hp⟩, by simp; omega⟩
    · injection h' with h'; injection h' with h1 h2; rw [h1] at hw; exact absurd hw h0
  · cases h; exact .inr (.inl ⟨rfl, rfl, rfl⟩)
  · have h' : (if depth = 0 then Res.err Err.unexpectedEndGroup else .ok ((a.length : Int) + t.length, depth - 1))
        = .ok (i, depth') := h
    split at h'
    · cases h'
    · cases h'; exact .inr (.inr ⟨rfl, by omega, rfl⟩)
  · have h' : Res.ok (wrapInt ((a.length : Int) + t.length + 4), depth) = .ok (i, depth') := h
    rcases wrapInt_add ((a.length : Int) + t.length) 4 (by omega) (by omega) (by omega) (by omega) with hw | hw
    · rw [hw.2] at h'
      cases h'
      obtain ⟨s, r', rfl, hs⟩ := cut r 4 (by omega)
      exact .inl ⟨rfl, .fixed32 _ s, s, r', rfl, ⟨t, rfl, htag, hs⟩, by simp; omega⟩
    · injection h' with h'; injection h' with h1 h2; rw [h1] at hw; exact absurd hw h0
  · cases h
  · cases h

/-- What the skip loop has read when it returns. -/
theorem skipLoop_reads : ∀ (n : Nat) (a r : Bytes) (depth : Nat) (j : Int), (a ++ r).length < 2 ^ 63 →
    skipLoop (a ++ r) n a.length depth = .ok j → j ≤ (a ++ r).length →
    (depth = 0 → ∃ (f : Field) (x r' : Bytes), r = x ++ r' ∧ f.Reads x ∧ j = (a.length : Int) + x.length) ∧
    (∀ k, depth = k + 1 → ∃ x r', r = x ++ r' ∧ Closes (k + 1) x ∧ j = (a.length : Int) + x.length)
  | 0, a, r, depth, j, hl, h, hj => by cases h
  | n + 1, a, r, depth, j, hl, h, hj => by
    by_cases hr : (a.length : Int) < (a ++ r).length
    · have hv : ∃ v i, varint (a ++ r) a.length 0 0 = .ok (v, i) := by
        unfold skipLoop at h
        rw [if_pos hr, bind_ok] at h
        obtain ⟨⟨v, i⟩, hv, -⟩ := h
        exact ⟨v, i, hv⟩
      obtain ⟨v, i, hv⟩ := hv
      obtain ⟨t, r1, rfl, ht, rfl⟩ := (varint_iff _ _ _ _).1 hv
      rw [skipLoop_round _ _ _ _ _ _ ht, bind_ok] at h
      obtain ⟨⟨i2, depth'⟩, hone, h⟩ := h
      dsimp only at h
      split at h
      · cases h
      rename_i h0
      have hi2 : i2 ≤ (a ++ (t ++ r1)).length := by
        split at h
        · cases h; exact hj
        · cases n with
          | zero => cases h
          | succ n =>
            unfold skipLoop at h
            split at h
            · omega
            · cases h
      rcases skipOne_reads a t r1 v depth i2 depth' ht hl hone h0 hi2 with ⟨rfl, f, y, r', rfl, hf, rfl⟩ | ⟨hw, rfl, rfl⟩ |
        ⟨hw, rfl, rfl⟩
      · refine ⟨fun hd => ?_, fun k hk => ?_⟩
        · rw [if_pos hd] at h
          cases h
          exact ⟨f, t ++ y, r', by simp, hf, rfl⟩
        · rw [if_neg (by omega)] at h
          rw [show a ++ (t ++ (y ++ r')) = (a ++ (t ++ y)) ++ r' by simp] at h hl hj
          rw [show (a.length : Int) + (t ++ y).length = ((a ++ (t ++ y)).length : Int) by simp] at h
          obtain ⟨x, r2, rfl, ⟨fs, b, e, n', z, rfl, hb, he, hz⟩, rfl⟩ := (skipLoop_reads n _ _ _ _ hl h hj).2 k hk
          exact ⟨(t ++ y) ++ (b ++ (e ++ z)), r2, by simp,
            ⟨f :: fs, (t ++ y) ++ b, e, n', z, by simp, ⟨_, _, rfl, hf, hb⟩, he, hz⟩, by simp; omega⟩
      · rw [if_neg (by omega)] at h
        rw [show a ++ (t ++ r1) = (a ++ t) ++ r1 by simp] at h hl hj
        rw [show (a.length : Int) + t.length = ((a ++ t).length : Int) by simp] at h
        obtain ⟨x, r2, rfl, ⟨fs, b, e, n', z, rfl, hb, he, hz⟩, rfl⟩ := (skipLoop_reads n _ _ _ _ hl h hj).2 depth rfl
        have hg : (Field.group (v / 8 % 2 ^ 32) fs).Reads (t ++ (b ++ e)) :=
          ⟨t, b, e, n', rfl, hw ▸ tag_of ht, hb, he⟩
        refine ⟨fun hd => ?_, fun k hk => ?_⟩
        · subst hd
          have hz : z = [] := hz
          subst hz
          exact ⟨_, t ++ (b ++ e), r2, by simp, hg, by simp; omega⟩
        · subst hk
          obtain ⟨fs2, b2, e2, n2, z2, rfl, hb2, he2, hz2⟩ := hz
          exact ⟨(t ++ (b ++ e)) ++ (b2 ++ (e2 ++ z2)), r2, by simp,
            ⟨_ :: fs2, (t ++ (b ++ e)) ++ b2, e2, n2, z2, by simp, ⟨_, _, rfl, hg, hb2⟩, he2, hz2⟩, by simp; omega⟩
      · refine ⟨fun hd => by omega, fun k hk => ?_⟩
        have hk : depth' = k := by omega
        subst hk
        have he : Tag t (v / 8 % 2 ^ 32) 4 := hw ▸ tag_of ht
        split at h
        · rename_i hd
          subst hd
          cases h
          exact ⟨t, r1, rfl, ⟨[], [], t, _, [], by simp, rfl, he, rfl⟩, rfl⟩
        · rw [show a ++ (t ++ r1) = (a ++ t) ++ r1 by simp] at h hl hj
          rw [show (a.length : Int) + t.length = ((a ++ t).length : Int) by simp] at h
          obtain ⟨k, rfl⟩ : ∃ k, depth' = k + 1 := ⟨depth' - 1, by omega⟩
          obtain ⟨x, r2, rfl, hx, rfl⟩ := (skipLoop_reads n _ _ _ _ hl h hj).2 k rfl
          exact ⟨t ++ x, r2, by simp, ⟨[], [], t, _, x, by simp, rfl, he, hx⟩, by simp; omega⟩
    · unfold skipLoop at h
      rw [if_neg hr] at h
      cases h

/-- If `skipRouter` succeeds within the bytes, it has read a field. -/
theorem skipRouter_only (r : Bytes) (j : Int) (hl : r.length < 2 ^ 63) (h : skipRouter r = .ok j) (hj : j ≤ r.length) :
    ∃ (f : Field) (x r' : Bytes), r = x ++ r' ∧ f.Reads x ∧ j = x.length := by
  have := (skipLoop_reads _ [] r 0 j (by simpa using hl) h (by simpa using hj)).1 rfl
  simpa using this

end Braid.Wire
