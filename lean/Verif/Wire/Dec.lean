import Verif.Wire.Enc

/-
Helper lemmas for C44 and C47: what the decoder does on a well-formed encoding.
-/
namespace Braid.Wire

theorem idx_mid (a t : Bytes) (b : UInt8) : idx (a ++ b :: t) (a.length : Int) = .ok b := by
  simp [idx]

theorem and_127 (v : Nat) : v &&& 0x7f = v % 128 := Nat.and_two_pow_sub_one_eq_mod v 7

theorem or_shift (x y s : Nat) (hx : x < 2 ^ s) (hy : y * 2 ^ s < 2 ^ 64) :
    x ||| (y <<< s) % 2 ^ 64 = x + y * 2 ^ s := by
  rw [Nat.shiftLeft_eq, Nat.mod_eq_of_lt hy, Nat.or_comm, ← Nat.shiftLeft_eq,
    ← Nat.shiftLeft_add_eq_or_of_lt hx, Nat.shiftLeft_eq]
  omega

theorem varint_read_aux (v : Nat) : ∀ (a t : Bytes) (s x : Nat), x < 2 ^ s → s < 64 →
    v * 2 ^ s < 2 ^ 64 →
    varint (a ++ (Spec.varint v ++ t)) a.length s x
      = .ok (x + v * 2 ^ s, (a.length : Int) + (Spec.varint v).length) := by
  induction v using Nat.strongRecOn with
  | _ v ih =>
    intro a t s x hx hs hv
    rw [varint, if_neg (by omega)]
    have hlen : ¬ (a.length : Int) ≥ (a ++ (Spec.varint v ++ t)).length := by
      have : 0 < (Spec.varint v).length := List.length_pos_iff.2 (varint_ne_nil v)
      simp; omega
    rw [if_neg hlen]
    clear hlen
    rw [Spec.varint]
    by_cases h : v < 128
    · rw [if_pos h]
      simp only [List.cons_append, List.nil_append, idx_mid, Res.bind_ok]
      have e : (UInt8.ofNat v).toNat = v := by simp; omega
      rw [e, if_pos h, and_127, Nat.mod_eq_of_lt h, or_shift x v s hx hv]
      simp
    · rw [if_neg h]
      simp only [List.cons_append, idx_mid, Res.bind_ok]
      have e : (UInt8.ofNat (v % 128 + 128)).toNat = v % 128 + 128 := by simp; omega
      have e2 : (v % 128 + 128) % 128 = v % 128 := by omega
      have hp : 0 < 2 ^ s := Nat.two_pow_pos s
      have h1 : v % 128 * 2 ^ s < 2 ^ 64 :=
        Nat.lt_of_le_of_lt (Nat.mul_le_mul_right _ (Nat.mod_le _ _)) hv
      have hdm : v * 2 ^ s = v % 128 * 2 ^ s + v / 128 * 2 ^ (s + 7) := by
        have hv' : v = v % 128 + v / 128 * 128 := by omega
        have h7 : 2 ^ (s + 7) = 128 * 2 ^ s := by rw [Nat.pow_add]; omega
        rw [h7, ← Nat.mul_assoc, ← Nat.add_mul, ← hv']
      have h2 : s + 7 < 64 := by
        have : 2 ^ (s + 7) < 2 ^ 64 := by
          have : 1 * 2 ^ (s + 7) ≤ v / 128 * 2 ^ (s + 7) := Nat.mul_le_mul_right _ (by omega)
          omega
        exact (Nat.pow_lt_pow_iff_right (by decide)).1 this
      rw [e, if_neg (by omega), and_127, e2, or_shift x (v % 128) s hx h1]
      have h3 : x + v % 128 * 2 ^ s < 2 ^ (s + 7) := by
        have : v % 128 * 2 ^ s ≤ 127 * 2 ^ s := Nat.mul_le_mul_right _ (by omega)
        have : 2 ^ (s + 7) = 128 * 2 ^ s := by rw [Nat.pow_add]; omega
        omega
      have := ih (v / 128) (by omega) (a ++ [UInt8.ofNat (v % 128 + 128)]) t (s + 7)
        (x + v % 128 * 2 ^ s) h3 h2 (by omega)
      simp only [List.append_assoc, List.cons_append, List.nil_append, List.length_append,
        List.length_singleton, Int.natCast_add] at this
      rw [show (a.length : Int) + 1 = a.length + ((1 : Nat) : Int) from rfl, this]
      simp only [List.length_cons]
      congr 2
      · omega
      · omega

theorem varint_read (a t : Bytes) (v : Nat) (hv : v < 2 ^ 64) :
    varint (a ++ (Spec.varint v ++ t)) a.length 0 0
      = .ok (v, (a.length : Int) + (Spec.varint v).length) := by
  have := varint_read_aux v a t 0 0 (by omega) (by omega) (by omega)
  simpa using this

theorem skipVarint_read_aux (v : Nat) : ∀ (a t : Bytes) (s : Nat), s < 64 → v * 2 ^ s < 2 ^ 64 →
    skipVarint (a ++ (Spec.varint v ++ t)) a.length s
      = .ok ((a.length : Int) + (Spec.varint v).length) := by
  induction v using Nat.strongRecOn with
  | _ v ih =>
    intro a t s hs hv
    rw [skipVarint, if_neg (by omega)]
    have hlen : ¬ (a.length : Int) ≥ (a ++ (Spec.varint v ++ t)).length := by
      have : 0 < (Spec.varint v).length := List.length_pos_iff.2 (varint_ne_nil v)
      simp; omega
    rw [if_neg hlen]
    clear hlen
    rw [Spec.varint]
    by_cases h : v < 128
    · rw [if_pos h]
      simp only [List.cons_append, List.nil_append, idx_mid, Res.bind_ok]
      have e : (UInt8.ofNat v).toNat = v := by simp; omega
      rw [e, if_pos h]
      simp
    · rw [if_neg h]
      simp only [List.cons_append, idx_mid, Res.bind_ok]
      have e : (UInt8.ofNat (v % 128 + 128)).toNat = v % 128 + 128 := by simp; omega
      have hdm : v * 2 ^ s = v % 128 * 2 ^ s + v / 128 * 2 ^ (s + 7) := by
        have hv' : v = v % 128 + v / 128 * 128 := by omega
        have h7 : 2 ^ (s + 7) = 128 * 2 ^ s := by rw [Nat.pow_add]; omega
        rw [h7, ← Nat.mul_assoc, ← Nat.add_mul, ← hv']
      have h2 : s + 7 < 64 := by
        have : 2 ^ (s + 7) < 2 ^ 64 := by
          have : 1 * 2 ^ (s + 7) ≤ v / 128 * 2 ^ (s + 7) := Nat.mul_le_mul_right _ (by omega)
          omega
        exact (Nat.pow_lt_pow_iff_right (by decide)).1 this
      rw [e, if_neg (by omega)]
      have := ih (v / 128) (by omega) (a ++ [UInt8.ofNat (v % 128 + 128)]) t (s + 7) h2 (by omega)
      simp only [List.append_assoc, List.cons_append, List.nil_append, List.length_append,
        List.length_singleton, Int.natCast_add] at this
      rw [show (a.length : Int) + 1 = a.length + ((1 : Nat) : Int) from rfl, this]
      simp only [List.length_cons]
      congr 1
      omega

theorem skipVarint_read (a t : Bytes) (v : Nat) (hv : v < 2 ^ 64) :
    skipVarint (a ++ (Spec.varint v ++ t)) a.length 0
      = .ok ((a.length : Int) + (Spec.varint v).length) :=
  skipVarint_read_aux v a t 0 (by omega) (by omega)

theorem wrapInt_of (x : Int) (h0 : 0 ≤ x) (h1 : x < 2 ^ 63) : wrapInt x = x := by
  simp only [wrapInt]; omega

theorem slice_mid (a s t : Bytes) :
    slice (a ++ (s ++ t)) a.length ((a.length : Int) + s.length) = .ok s := by
  have h1 : (a.length : Int) + s.length ≤ (a ++ (s ++ t)).length := by simp; omega
  have h2 : ((a.length : Int) + s.length).toNat = (a ++ s).length := by simp; omega
  simp only [slice, h1, h2, Int.natCast_nonneg, and_true, true_and, Int.toNat_natCast]
  rw [if_pos (by omega), ← List.append_assoc, List.take_left' rfl, List.drop_left' rfl]

theorem bytesField_read (a s t : Bytes)
    (h : (a ++ (Spec.varint s.length ++ (s ++ t))).length < 2 ^ 63) :
    bytesField (a ++ (Spec.varint s.length ++ (s ++ t))) a.length
      = .ok (s, (a.length : Int) + (Spec.varint s.length).length + s.length) := by
  have hl := h
  simp only [List.length_append] at hl
  simp only [bytesField]
  rw [varint_read a (s ++ t) s.length (by omega)]
  simp only [Res.bind_ok]
  have e : toInt64 s.length = s.length := by simp only [toInt64]; rw [if_pos (by omega)]
  rw [e, if_neg (by omega), wrapInt_of _ (by omega) (by omega), if_neg (by omega),
    if_neg (by simp; omega)]
  have := slice_mid (a ++ Spec.varint s.length) s t
  simp only [List.append_assoc, List.length_append, Int.natCast_add] at this
  rw [this]
  rfl

theorem and_7 (n w : Nat) (h : w < 8) : (n * 8 + w) &&& 7 = w := by
  have : (n * 8 + w) &&& 7 = (n * 8 + w) % 8 := Nat.and_two_pow_sub_one_eq_mod _ 3
  omega

theorem shift_3 (n w : Nat) (h : w < 8) : (n * 8 + w) >>> 3 = n := by
  rw [Nat.shiftRight_eq_div_pow]; omega

theorem toInt32_small (n : Nat) (h : n < 2 ^ 29) : toInt32 n = n := by
  simp only [toInt32]
  have : n % 2 ^ 32 = n := Nat.mod_eq_of_lt (by omega)
  rw [this, if_pos (by omega)]

/-! ### Skipping -/

mutual
/-- Number of rounds `skipRouter` needs for a field. -/
def toks : Spec.Field → Nat
  | .varint _ _ => 1
  | .fixed64 _ _ => 1
  | .len _ _ => 1
  | .group _ fs => tokss fs + 2
  | .fixed32 _ _ => 1
def tokss : List Spec.Field → Nat
  | [] => 0
  | f :: fs => toks f + tokss fs
end

mutual
theorem toks_le : ∀ f : Spec.Field, toks f ≤ f.enc.length
  | .varint n v => by
    have : 0 < (Spec.varint (n * 8)).length := List.length_pos_iff.2 (varint_ne_nil _)
    simp only [toks, Spec.Field.enc, List.length_append]; omega
  | .fixed64 n s => by
    have : 0 < (Spec.varint (n * 8 + 1)).length := List.length_pos_iff.2 (varint_ne_nil _)
    simp only [toks, Spec.Field.enc, List.length_append]; omega
  | .len n s => by
    have : 0 < (Spec.varint (n * 8 + 2)).length := List.length_pos_iff.2 (varint_ne_nil _)
    simp only [toks, Spec.Field.enc, List.length_append]; omega
  | .group n fs => by
    have h1 : 0 < (Spec.varint (n * 8 + 3)).length := List.length_pos_iff.2 (varint_ne_nil _)
    have h2 : 0 < (Spec.varint (n * 8 + 4)).length := List.length_pos_iff.2 (varint_ne_nil _)
    have := tokss_le fs
    simp only [toks, Spec.Field.enc, List.length_append]; omega
  | .fixed32 n s => by
    have : 0 < (Spec.varint (n * 8 + 5)).length := List.length_pos_iff.2 (varint_ne_nil _)
    simp only [toks, Spec.Field.enc, List.length_append]; omega
theorem tokss_le : ∀ fs : List Spec.Field, tokss fs ≤ (Spec.encs fs).length
  | [] => by simp [tokss]
  | f :: fs => by
    have := toks_le f
    have := tokss_le fs
    simp only [tokss, Spec.encs, List.length_append]; omega
end

/-- Continue skipping after a complete field. -/
def cont (d : Bytes) (n : Nat) (i : Int) (depth : Nat) : Res Int :=
  if depth = 0 then .ok i else skipLoop d n i depth

/-- One round of the skip loop whose tag is `num * 8 + w`. -/
theorem skipLoop_tag (a t : Bytes) (num w n depth : Nat) (hnum : num < 2 ^ 29) (hw : w < 8) :
    skipLoop (a ++ (Spec.varint (num * 8 + w) ++ t)) (n + 1) a.length depth =
      (skipOne (a ++ (Spec.varint (num * 8 + w) ++ t)) w
        ((a.length : Int) + (Spec.varint (num * 8 + w)).length) depth).bind fun (i, depth) =>
      if i < 0 then .err .invalidLength
      else if depth = 0 then .ok i
      else skipLoop (a ++ (Spec.varint (num * 8 + w) ++ t)) n i depth := by
  have hlen : (a.length : Int) < (a ++ (Spec.varint (num * 8 + w) ++ t)).length := by
    have : 0 < (Spec.varint (num * 8 + w)).length := List.length_pos_iff.2 (varint_ne_nil _)
    simp; omega
  rw [skipLoop, if_pos hlen, varint_read a t _ (by omega), Res.bind_ok]
  simp only [and_7 num w hw]

theorem skipLoop_tag' (a t : Bytes) (num w n depth : Nat) (hnum : num < 2 ^ 29) (hw : w < 8)
    (i' : Int) (depth' : Nat)
    (h : skipOne (a ++ (Spec.varint (num * 8 + w) ++ t)) w
        ((a.length : Int) + (Spec.varint (num * 8 + w)).length) depth = .ok (i', depth')) :
    skipLoop (a ++ (Spec.varint (num * 8 + w) ++ t)) (n + 1) a.length depth =
      if i' < 0 then .err .invalidLength
      else if depth' = 0 then .ok i'
      else skipLoop (a ++ (Spec.varint (num * 8 + w) ++ t)) n i' depth' := by
  rw [skipLoop_tag a t num w n depth hnum hw, h, Res.bind_ok]

theorem skipOne_0 (d : Bytes) (i : Int) (depth : Nat) :
    skipOne d 0 i depth = (skipVarint d i 0).bind fun i => .ok (i, depth) := rfl
theorem skipOne_1 (d : Bytes) (i : Int) (depth : Nat) :
    skipOne d 1 i depth = .ok (wrapInt (i + 8), depth) := rfl
theorem skipOne_2 (d : Bytes) (i j : Int) (n depth : Nat) (h : varint d i 0 0 = .ok (n, j))
    (hn : ¬ toInt64 n < 0) :
    skipOne d 2 i depth = .ok (wrapInt (j + toInt64 n), depth) := by
  have : skipOne d 2 i depth = (varint d i 0 0).bind fun (n, i) =>
    if toInt64 n < 0 then .err .invalidLength
    else .ok (wrapInt (i + toInt64 n), depth) := rfl
  rw [this, h, Res.bind_ok]
  exact if_neg hn
theorem skipOne_3 (d : Bytes) (i : Int) (depth : Nat) :
    skipOne d 3 i depth = .ok (i, depth + 1) := rfl
theorem skipOne_4 (d : Bytes) (i : Int) (depth : Nat) :
    skipOne d 4 i (depth + 1) = .ok (i, depth) := rfl
theorem skipOne_5 (d : Bytes) (i : Int) (depth : Nat) :
    skipOne d 5 i depth = .ok (wrapInt (i + 4), depth) := rfl

/-- `skipRouter` on the field `f` in any context. -/
def SkipsField (f : Spec.Field) : Prop :=
  ∀ (a t : Bytes) (n depth : Nat), f.Ok → (a ++ (f.enc ++ t)).length < 2 ^ 63 →
    skipLoop (a ++ (f.enc ++ t)) (n + toks f) a.length depth
      = cont (a ++ (f.enc ++ t)) n ((a.length : Int) + f.enc.length) depth

/-- `skipRouter` on the fields `fs` inside a group. -/
def SkipsFields (fs : List Spec.Field) : Prop :=
  ∀ (a t : Bytes) (n depth : Nat), Spec.Oks fs → (a ++ (Spec.encs fs ++ t)).length < 2 ^ 63 →
    skipLoop (a ++ (Spec.encs fs ++ t)) (n + tokss fs) a.length (depth + 1)
      = skipLoop (a ++ (Spec.encs fs ++ t)) n ((a.length : Int) + (Spec.encs fs).length) (depth + 1)

theorem skips_varint (num v : Nat) : SkipsField (.varint num v) := by
  intro a t n depth hok hl
  simp only [Spec.Field.Ok] at hok
  simp only [Spec.Field.enc, toks, List.append_assoc] at hl ⊢
  have r := skipVarint_read (a ++ Spec.varint (num * 8 + 0)) t v hok.2.2
  simp only [List.append_assoc, List.length_append, Int.natCast_add] at r
  have r1 : skipOne (a ++ (Spec.varint (num * 8 + 0) ++ (Spec.varint v ++ t))) 0
      ((a.length : Int) + (Spec.varint (num * 8 + 0)).length) depth
      = .ok ((a.length : Int) + (Spec.varint (num * 8 + 0)).length + (Spec.varint v).length,
          depth) := by
    rw [skipOne_0, r, Res.bind_ok]
  have := skipLoop_tag' a (Spec.varint v ++ t) num 0 n depth hok.2.1 (by omega) _ _ r1
  rw [show num * 8 = num * 8 + 0 from rfl, this, if_neg (by omega), cont]
  simp only [List.length_append, Int.natCast_add, Int.add_assoc]

theorem skips_fixed64 (num : Nat) (s : Bytes) : SkipsField (.fixed64 num s) := by
  intro a t n depth hok hl
  simp only [Spec.Field.Ok] at hok
  simp only [Spec.Field.enc, toks, List.append_assoc] at hl ⊢
  rw [skipLoop_tag' a (s ++ t) num 1 n depth hok.2.1 (by omega) _ _ (skipOne_1 _ _ _)]
  simp only [List.length_append] at hl
  rw [wrapInt_of _ (by omega) (by omega), if_neg (by omega), cont]
  have e : (a.length : Int) + (Spec.varint (num * 8 + 1)).length + 8
      = a.length + (Spec.varint (num * 8 + 1) ++ s).length := by
    simp only [List.length_append, Int.natCast_add]; omega
  rw [e]

theorem skips_len (num : Nat) (s : Bytes) : SkipsField (.len num s) := by
  intro a t n depth hok hl
  simp only [Spec.Field.Ok] at hok
  simp only [Spec.Field.enc, toks, List.append_assoc] at hl ⊢
  have hl' := hl
  simp only [List.length_append] at hl'
  have r := varint_read (a ++ Spec.varint (num * 8 + 2)) (s ++ t) s.length (by omega)
  simp only [List.append_assoc, List.length_append, Int.natCast_add] at r
  have e : toInt64 s.length = s.length := by simp only [toInt64]; rw [if_pos (by omega)]
  rw [skipLoop_tag' a (Spec.varint s.length ++ (s ++ t)) num 2 n depth hok.2 (by omega) _ _
    (skipOne_2 _ _ _ _ _ r (by omega)), e]
  rw [wrapInt_of _ (by omega) (by omega), if_neg (by omega), cont]
  have e : (a.length : Int) + (Spec.varint (num * 8 + 2)).length + (Spec.varint s.length).length
      + s.length = a.length + (Spec.varint (num * 8 + 2) ++ (Spec.varint s.length ++ s)).length := by
    simp only [List.length_append, Int.natCast_add]; omega
  rw [e]

theorem skips_fixed32 (num : Nat) (s : Bytes) : SkipsField (.fixed32 num s) := by
  intro a t n depth hok hl
  simp only [Spec.Field.Ok] at hok
  simp only [Spec.Field.enc, toks, List.append_assoc] at hl ⊢
  rw [skipLoop_tag' a (s ++ t) num 5 n depth hok.2.1 (by omega) _ _ (skipOne_5 _ _ _)]
  simp only [List.length_append] at hl
  rw [wrapInt_of _ (by omega) (by omega), if_neg (by omega), cont]
  have e : (a.length : Int) + (Spec.varint (num * 8 + 5)).length + 4
      = a.length + (Spec.varint (num * 8 + 5) ++ s).length := by
    simp only [List.length_append, Int.natCast_add]; omega
  rw [e]

theorem skips_group (num : Nat) (fs : List Spec.Field) (ih : SkipsFields fs) :
    SkipsField (.group num fs) := by
  intro a t n depth hok hl
  simp only [Spec.Field.Ok] at hok
  simp only [Spec.Field.enc, toks, List.append_assoc] at hl ⊢
  rw [show n + (tokss fs + 2) = (n + 1 + tokss fs) + 1 by omega,
    skipLoop_tag' a (Spec.encs fs ++ (Spec.varint (num * 8 + 4) ++ t)) num 3 _ depth hok.2.1
      (by omega) _ _ (skipOne_3 _ _ _), if_neg (by omega), if_neg (by omega)]
  have r := ih (a ++ Spec.varint (num * 8 + 3)) (Spec.varint (num * 8 + 4) ++ t)
    (n + 1) depth hok.2.2 (by simpa using hl)
  simp only [List.append_assoc, List.length_append, Int.natCast_add] at r
  rw [r]
  have r2 := skipLoop_tag' (a ++ (Spec.varint (num * 8 + 3) ++ Spec.encs fs)) t num 4 n (depth + 1)
    hok.2.1 (by omega) _ _ (skipOne_4 _ _ _)
  simp only [List.append_assoc, List.length_append, Int.natCast_add] at r2
  rw [Int.add_assoc, r2, if_neg (by omega), cont]
  simp only [List.length_append, Int.natCast_add, Int.add_assoc]

theorem skips_nil : SkipsFields [] := by
  intro a t n depth _ _
  simp [Spec.encs, tokss]

theorem skips_cons (f : Spec.Field) (fs : List Spec.Field) (hf : SkipsField f) (ih : SkipsFields fs) :
    SkipsFields (f :: fs) := by
  intro a t n depth hok hl
  simp only [Spec.Oks] at hok
  simp only [Spec.encs, tokss, List.append_assoc] at hl ⊢
  rw [show n + (toks f + tokss fs) = (n + tokss fs) + toks f by omega,
    hf a (Spec.encs fs ++ t) (n + tokss fs) (depth + 1) hok.1 hl, cont,
    if_neg (by omega)]
  have r := ih (a ++ f.enc) t n depth hok.2 (by simpa using hl)
  simp only [List.append_assoc, List.length_append, Int.natCast_add] at r
  rw [r]
  simp only [List.length_append, Int.natCast_add, Int.add_assoc]

mutual
theorem skip_field : ∀ f : Spec.Field, SkipsField f
  | .varint n v => skips_varint n v
  | .fixed64 n s => skips_fixed64 n s
  | .len n s => skips_len n s
  | .group n fs => skips_group n fs (skip_fields fs)
  | .fixed32 n s => skips_fixed32 n s
theorem skip_fields : ∀ fs : List Spec.Field, SkipsFields fs
  | [] => skips_nil
  | f :: fs => skips_cons f fs (skip_field f) (skip_fields fs)
end

theorem skipRouter_field (f : Spec.Field) (t : Bytes) (hok : f.Ok) (hl : (f.enc ++ t).length < 2 ^ 63) :
    skipRouter (f.enc ++ t) = .ok (f.enc.length : Int) := by
  have h1 := toks_le f
  have := skip_field f [] t ((f.enc ++ t).length + 1 - toks f) 0 hok (by simpa using hl)
  simp only [List.nil_append, List.length_nil] at this
  rw [show (f.enc ++ t).length + 1 - toks f + toks f = (f.enc ++ t).length + 1 by
    simp only [List.length_append]; omega] at this
  rw [skipRouter]
  have h0 : ((0 : Nat) : Int) = 0 := rfl
  rw [h0] at this
  rw [this, cont, if_pos rfl]
  simp

/-! ### The message loop -/

variable {M : Type}

theorem enc_ne_nil (f : Spec.Field) : f.enc ≠ [] := by
  cases f <;> simp [Spec.Field.enc, varint_ne_nil]

/-- One round of the message loop on the tag `num * 8 + w`. -/
theorem unmarshalLoop_tag (field : M → Int → Nat → Int → Option (Res (M × Int))) (a t : Bytes)
    (num w n : Nat) (m : M) (h0 : 0 < num) (hnum : num < 2 ^ 29) (hw : w < 8) (hw4 : w ≠ 4) :
    unmarshalLoop field (a ++ (Spec.varint (num * 8 + w) ++ t)) (n + 1) a.length m =
      match field m num w ((a.length : Int) + (Spec.varint (num * 8 + w)).length) with
      | some r => r.bind fun (m, i) =>
          unmarshalLoop field (a ++ (Spec.varint (num * 8 + w) ++ t)) n i m
      | none =>
          (slice (a ++ (Spec.varint (num * 8 + w) ++ t)) a.length
            (a ++ (Spec.varint (num * 8 + w) ++ t)).length).bind fun sub =>
          (skipRouter sub).bind fun sk =>
          if sk < 0 ∨ wrapInt (a.length + sk) < 0 then .err .invalidLength
          else if wrapInt (a.length + sk) > (a ++ (Spec.varint (num * 8 + w) ++ t)).length
          then .err .eof
          else unmarshalLoop field (a ++ (Spec.varint (num * 8 + w) ++ t)) n
            (wrapInt (a.length + sk)) m := by
  have hlen : (a.length : Int) < (a ++ (Spec.varint (num * 8 + w) ++ t)).length := by
    have : 0 < (Spec.varint (num * 8 + w)).length := List.length_pos_iff.2 (varint_ne_nil _)
    simp; omega
  rw [unmarshalLoop, if_pos hlen, varint_read a t _ (by omega), Res.bind_ok]
  simp only [and_7 num w hw, shift_3 num w hw, hw4, if_false, toInt32_small num hnum]
  rw [if_neg (by omega)]
  rfl

/-- The wire type of a field. -/
def wt : Spec.Field → Nat
  | .varint _ _ => 0
  | .fixed64 _ _ => 1
  | .len _ _ => 2
  | .group _ _ => 3
  | .fixed32 _ _ => 5

/-- What follows the tag. -/
def payload : Spec.Field → Bytes
  | .varint _ v => Spec.varint v
  | .fixed64 _ s => s
  | .len _ s => Spec.varint s.length ++ s
  | .group n fs => Spec.encs fs ++ Spec.varint (n * 8 + 4)
  | .fixed32 _ s => s

theorem enc_split (f : Spec.Field) : f.enc = Spec.varint (f.num * 8 + wt f) ++ payload f := by
  cases f <;> simp [Spec.Field.enc, Spec.Field.num, wt, payload]

theorem wt_lt (f : Spec.Field) : wt f < 8 := by cases f <;> simp [wt]
theorem wt_ne (f : Spec.Field) : wt f ≠ 4 := by cases f <;> simp [wt]
theorem ok_num (f : Spec.Field) (h : f.Ok) : 0 < f.num ∧ f.num < 2 ^ 29 := by
  cases f <;> simp only [Spec.Field.Ok] at h <;> simp only [Spec.Field.num] <;> omega

/-- One round of the message loop on a complete field. -/
theorem unmarshalLoop_field (field : M → Int → Nat → Int → Option (Res (M × Int))) (a t : Bytes)
    (f : Spec.Field) (n : Nat) (m : M) (hok : f.Ok) (hl : (a ++ (f.enc ++ t)).length < 2 ^ 63) :
    unmarshalLoop field (a ++ (f.enc ++ t)) (n + 1) a.length m =
      match field m f.num (wt f) ((a.length : Int) + (Spec.varint (f.num * 8 + wt f)).length) with
      | some r => r.bind fun (m, i) => unmarshalLoop field (a ++ (f.enc ++ t)) n i m
      | none => unmarshalLoop field (a ++ (f.enc ++ t)) n ((a.length : Int) + f.enc.length) m := by
  have key := unmarshalLoop_tag field a (payload f ++ t) f.num (wt f) n m (ok_num f hok).1
    (ok_num f hok).2 (wt_lt f) (wt_ne f)
  rw [← List.append_assoc (Spec.varint (f.num * 8 + wt f)), ← enc_split] at key
  rw [key]
  cases field m f.num (wt f) ((a.length : Int) + (Spec.varint (f.num * 8 + wt f)).length) with
  | some r => rfl
  | none =>
    simp only
    have hs : slice (a ++ (f.enc ++ t)) a.length (a ++ (f.enc ++ t)).length = .ok (f.enc ++ t) := by
      have := slice_mid a (f.enc ++ t) []
      simp only [List.append_nil] at this
      rw [← this]
      simp
    simp only [List.length_append] at hl
    rw [hs, Res.bind_ok, skipRouter_field f t hok (by simp; omega), Res.bind_ok,
      wrapInt_of _ (by omega) (by omega), if_neg (by omega), if_neg (by simp; omega)]

theorem unmarshalLoop_end (field : M → Int → Nat → Int → Option (Res (M × Int))) (d : Bytes)
    (n : Nat) (m : M) : unmarshalLoop field d (n + 1) d.length m = .ok m := by
  rw [unmarshalLoop, if_neg (by omega), if_neg (by omega)]

/-- A length-delimited field. -/
theorem takeBytes_read (a s t : Bytes) (num : Nat) (set : Bytes → M)
    (h : (a ++ ((Spec.Field.len num s).enc ++ t)).length < 2 ^ 63) :
    takeBytes (a ++ ((Spec.Field.len num s).enc ++ t)) 2
      ((a.length : Int) + (Spec.varint (num * 8 + 2)).length) set
      = .ok (set s, (a.length : Int) + (Spec.Field.len num s).enc.length) := by
  simp only [Spec.Field.enc, List.append_assoc] at h ⊢
  have r := bytesField_read (a ++ Spec.varint (num * 8 + 2)) s t (by simpa using h)
  simp only [List.append_assoc, List.length_append, Int.natCast_add] at r
  simp only [takeBytes, ne_eq, not_true, if_false, r, Res.bind_ok, List.length_append,
    Int.natCast_add, Int.add_assoc]

/-- A nested message. -/
theorem takeNested_read {N : Type} (dec : N → Bytes → Res N) (a s t : Bytes) (num : Nat) (old x : N)
    (set : N → M) (h : (a ++ ((Spec.Field.len num s).enc ++ t)).length < 2 ^ 63)
    (hx : dec old s = .ok x) :
    takeNested dec (a ++ ((Spec.Field.len num s).enc ++ t)) 2
      ((a.length : Int) + (Spec.varint (num * 8 + 2)).length) old set
      = .ok (set x, (a.length : Int) + (Spec.Field.len num s).enc.length) := by
  simp only [Spec.Field.enc, List.append_assoc] at h ⊢
  have r := bytesField_read (a ++ Spec.varint (num * 8 + 2)) s t (by simpa using h)
  simp only [List.append_assoc, List.length_append, Int.natCast_add] at r
  simp only [takeNested, ne_eq, not_true, if_false, r, Res.bind_ok, hx, List.length_append,
    Int.natCast_add, Int.add_assoc]

theorem takeNested_err {N : Type} (dec : N → Bytes → Res N) (a s t : Bytes) (num : Nat) (old : N)
    (e : Err) (set : N → M) (h : (a ++ ((Spec.Field.len num s).enc ++ t)).length < 2 ^ 63)
    (hx : dec old s = .err e) :
    takeNested dec (a ++ ((Spec.Field.len num s).enc ++ t)) 2
      ((a.length : Int) + (Spec.varint (num * 8 + 2)).length) old set = .err e := by
  simp only [Spec.Field.enc, List.append_assoc] at h ⊢
  have r := bytesField_read (a ++ Spec.varint (num * 8 + 2)) s t (by simpa using h)
  simp only [List.append_assoc, List.length_append, Int.natCast_add] at r
  simp only [takeNested, ne_eq, not_true, if_false, r, Res.bind_ok, hx, Res.bind_err]

/-- The bits of the decoded timestamp. -/
theorem int64_of (v : Nat) : (UInt64.ofNat v).toInt64 = Int64.ofInt v := by
  rw [← Int64.toBitVec_inj]
  simp

theorem hf_1 (d : Bytes) (m : Header) (w : Nat) (i : Int) :
    headerField d m ((1 : Nat) : Int) w i = some (takeBytes d w i fun s => { m with id := s }) := rfl
theorem hf_2 (d : Bytes) (m : Header) (w : Nat) (i : Int) :
    headerField d m ((2 : Nat) : Int) w i = some (takeBytes d w i fun s => { m with orgActorID := s }) := rfl
theorem hf_3 (d : Bytes) (m : Header) (w : Nat) (i : Int) :
    headerField d m ((3 : Nat) : Int) w i = some (takeBytes d w i fun s => { m with orgActorType := s }) := rfl
theorem hf_4 (d : Bytes) (m : Header) (w : Nat) (i : Int) :
    headerField d m ((4 : Nat) : Int) w i = some (takeBytes d w i fun s => { m with prevActorType := s }) := rfl
theorem hf_7 (d : Bytes) (m : Header) (w : Nat) (i : Int) :
    headerField d m ((7 : Nat) : Int) w i = some (takeBytes d w i fun s => { m with targetActorID := s }) := rfl
theorem hf_8 (d : Bytes) (m : Header) (w : Nat) (i : Int) :
    headerField d m ((8 : Nat) : Int) w i = some (takeBytes d w i fun s => { m with targetActorType := s }) := rfl
theorem hf_9 (d : Bytes) (m : Header) (w : Nat) (i : Int) :
    headerField d m ((9 : Nat) : Int) w i = some (takeBytes d w i fun s => { m with event := s }) := rfl
theorem hf_10 (d : Bytes) (m : Header) (w : Nat) (i : Int) :
    headerField d m ((10 : Nat) : Int) w i = some (takeBytes d w i fun s => { m with token := s }) := rfl
theorem hf_12 (d : Bytes) (m : Header) (w : Nat) (i : Int) :
    headerField d m ((12 : Nat) : Int) w i = some (takeBytes d w i fun s => { m with custom := s }) := rfl
theorem hf_11 (d : Bytes) (m : Header) (w : Nat) (i : Int) :
    headerField d m ((11 : Nat) : Int) w i = some (if w ≠ 0 then .err .wrongWire
      else (varint d i 0 0).bind fun (v, i) =>
        .ok ({ m with timestamp := (UInt64.ofNat v).toInt64 }, i)) := rfl

theorem hf_other (d : Bytes) (m : Header) (num : Nat) (w : Nat) (i : Int)
    (h : num ∉ Spec.headerNums) : headerField d m num w i = none := by
  simp only [Spec.headerNums, List.mem_cons, List.not_mem_nil, or_false, not_or] at h
  unfold headerField
  rw [if_neg (by omega)]
  rw [if_neg (by omega)]
  rw [if_neg (by omega)]
  rw [if_neg (by omega)]
  rw [if_neg (by omega)]
  rw [if_neg (by omega)]
  rw [if_neg (by omega)]
  rw [if_neg (by omega)]
  rw [if_neg (by omega)]
  rw [if_neg (by omega)]

/-- The switch of the header decoder against the specification, for the known fields. -/
theorem headerField_spec (a t : Bytes) (f : Spec.Field) (m : Header) (hok : f.Ok)
    (hl : (a ++ (f.enc ++ t)).length < 2 ^ 63) (hn : f.num ∈ Spec.headerNums) :
    headerField (a ++ (f.enc ++ t)) m f.num (wt f)
      ((a.length : Int) + (Spec.varint (f.num * 8 + wt f)).length) =
      some (match Spec.apply m f with
        | some m' => .ok (m', (a.length : Int) + f.enc.length)
        | none => .err .wrongWire) := by
  have tb : ∀ (d : Bytes) (w : Nat) (i : Int) (set : Bytes → Header), w ≠ 2 →
      takeBytes d w i set = .err .wrongWire := fun d w i set h => by
    rw [takeBytes, if_pos h]
  cases f with
  | len num s =>
    simp only [Spec.Field.num, wt] at hn ⊢
    simp only [Spec.headerNums, List.mem_cons, List.not_mem_nil, or_false] at hn
    rcases hn with rfl | rfl | rfl | rfl | rfl | rfl | rfl | rfl | rfl | rfl
    · rw [hf_1, takeBytes_read a s t 1 _ hl]; rfl
    · rw [hf_2, takeBytes_read a s t 2 _ hl]; rfl
    · rw [hf_3, takeBytes_read a s t 3 _ hl]; rfl
    · rw [hf_4, takeBytes_read a s t 4 _ hl]; rfl
    · rw [hf_7, takeBytes_read a s t 7 _ hl]; rfl
    · rw [hf_8, takeBytes_read a s t 8 _ hl]; rfl
    · rw [hf_9, takeBytes_read a s t 9 _ hl]; rfl
    · rw [hf_10, takeBytes_read a s t 10 _ hl]; rfl
    · rw [hf_11, if_pos (by omega)]; rfl
    · rw [hf_12, takeBytes_read a s t 12 _ hl]; rfl
  | varint num v =>
    simp only [Spec.Field.num, wt] at hn ⊢
    simp only [Spec.headerNums, List.mem_cons, List.not_mem_nil, or_false] at hn
    rcases hn with rfl | rfl | rfl | rfl | rfl | rfl | rfl | rfl | rfl | rfl
    · rw [hf_1, tb _ _ _ _ (by omega)]; rfl
    · rw [hf_2, tb _ _ _ _ (by omega)]; rfl
    · rw [hf_3, tb _ _ _ _ (by omega)]; rfl
    · rw [hf_4, tb _ _ _ _ (by omega)]; rfl
    · rw [hf_7, tb _ _ _ _ (by omega)]; rfl
    · rw [hf_8, tb _ _ _ _ (by omega)]; rfl
    · rw [hf_9, tb _ _ _ _ (by omega)]; rfl
    · rw [hf_10, tb _ _ _ _ (by omega)]; rfl
    · rw [hf_11, if_neg (by omega)]
      simp only [Spec.Field.Ok] at hok
      simp only [Spec.Field.enc, List.append_assoc]
      have r := varint_read (a ++ Spec.varint (11 * 8)) t v hok.2.2
      simp only [List.append_assoc, List.length_append, Int.natCast_add] at r
      rw [Nat.add_zero, r, Res.bind_ok]
      simp only [Spec.apply, int64_of, List.length_append, Int.natCast_add, Int.add_assoc]
    · rw [hf_12, tb _ _ _ _ (by omega)]; rfl
  | fixed64 num s =>
    simp only [Spec.Field.num, wt] at hn ⊢
    simp only [Spec.headerNums, List.mem_cons, List.not_mem_nil, or_false] at hn
    rcases hn with rfl | rfl | rfl | rfl | rfl | rfl | rfl | rfl | rfl | rfl
    · rw [hf_1, tb _ _ _ _ (by omega)]; rfl
    · rw [hf_2, tb _ _ _ _ (by omega)]; rfl
    · rw [hf_3, tb _ _ _ _ (by omega)]; rfl
    · rw [hf_4, tb _ _ _ _ (by omega)]; rfl
    · rw [hf_7, tb _ _ _ _ (by omega)]; rfl
    · rw [hf_8, tb _ _ _ _ (by omega)]; rfl
    · rw [hf_9, tb _ _ _ _ (by omega)]; rfl
    · rw [hf_10, tb _ _ _ _ (by omega)]; rfl
    · rw [hf_11, if_pos (by omega)]; rfl
    · rw [hf_12, tb _ _ _ _ (by omega)]; rfl
  | group num fs =>
    simp only [Spec.Field.num, wt] at hn ⊢
    simp only [Spec.headerNums, List.mem_cons, List.not_mem_nil, or_false] at hn
    rcases hn with rfl | rfl | rfl | rfl | rfl | rfl | rfl | rfl | rfl | rfl
    · rw [hf_1, tb _ _ _ _ (by omega)]; rfl
    · rw [hf_2, tb _ _ _ _ (by omega)]; rfl
    · rw [hf_3, tb _ _ _ _ (by omega)]; rfl
    · rw [hf_4, tb _ _ _ _ (by omega)]; rfl
    · rw [hf_7, tb _ _ _ _ (by omega)]; rfl
    · rw [hf_8, tb _ _ _ _ (by omega)]; rfl
    · rw [hf_9, tb _ _ _ _ (by omega)]; rfl
    · rw [hf_10, tb _ _ _ _ (by omega)]; rfl
    · rw [hf_11, if_pos (by omega)]; rfl
    · rw [hf_12, tb _ _ _ _ (by omega)]; rfl
  | fixed32 num s =>
    simp only [Spec.Field.num, wt] at hn ⊢
    simp only [Spec.headerNums, List.mem_cons, List.not_mem_nil, or_false] at hn
    rcases hn with rfl | rfl | rfl | rfl | rfl | rfl | rfl | rfl | rfl | rfl
    · rw [hf_1, tb _ _ _ _ (by omega)]; rfl
    · rw [hf_2, tb _ _ _ _ (by omega)]; rfl
    · rw [hf_3, tb _ _ _ _ (by omega)]; rfl
    · rw [hf_4, tb _ _ _ _ (by omega)]; rfl
    · rw [hf_7, tb _ _ _ _ (by omega)]; rfl
    · rw [hf_8, tb _ _ _ _ (by omega)]; rfl
    · rw [hf_9, tb _ _ _ _ (by omega)]; rfl
    · rw [hf_10, tb _ _ _ _ (by omega)]; rfl
    · rw [hf_11, if_pos (by omega)]; rfl
    · rw [hf_12, tb _ _ _ _ (by omega)]; rfl

theorem apply_unknown (m : Header) (f : Spec.Field) (h : f.num ∉ Spec.headerNums) :
    Spec.apply m f = some m := by
  unfold Spec.apply
  split <;> first | (simp only [h, if_false]; done) | exact absurd (by simp [Spec.Field.num, Spec.headerNums]) h

/-- The header decoder on a sequence of well-formed fields. -/
theorem unmarshal_fields : ∀ (fs : List Spec.Field) (a : Bytes) (n : Nat) (m : Header),
    Spec.Oks fs → (a ++ Spec.encs fs).length < 2 ^ 63 → fs.length < n →
    unmarshalLoop (headerField (a ++ Spec.encs fs)) (a ++ Spec.encs fs) n a.length m =
      match Spec.applyAll m fs with
      | some m' => .ok m'
      | none => .err .wrongWire := by
  intro fs
  induction fs with
  | nil =>
    intro a n m _ _ hn
    obtain ⟨n, rfl⟩ : ∃ k, n = k + 1 := ⟨n - 1, by simp at hn; omega⟩
    simp only [Spec.encs, List.append_nil, Spec.applyAll]
    exact unmarshalLoop_end _ a n m
  | cons f fs ih =>
    intro a n m hok hl hn
    obtain ⟨n, rfl⟩ : ∃ k, n = k + 1 := ⟨n - 1, by simp at hn; omega⟩
    simp only [Spec.Oks] at hok
    simp only [Spec.encs] at hl ⊢
    rw [unmarshalLoop_field _ a (Spec.encs fs) f n m hok.1 hl]
    have ih' := fun m' => ih (a ++ f.enc) n m' hok.2 (by simpa using hl) (by simpa using hn)
    simp only [List.append_assoc, List.length_append, Int.natCast_add] at ih'
    by_cases hk : f.num ∈ Spec.headerNums
    · rw [headerField_spec a (Spec.encs fs) f m hok.1 hl hk]
      simp only [Spec.applyAll]
      cases Spec.apply m f with
      | none => rfl
      | some m' =>
        simp only [Res.bind_ok, Option.bind_some]
        exact ih' m'
    · rw [hf_other _ m f.num _ _ hk]
      simp only [Spec.applyAll, apply_unknown m f hk, Option.bind_some]
      exact ih' m

theorem unmarshalHeader_fields (fs : List Spec.Field) (m : Header) (hok : Spec.Oks fs)
    (hl : (Spec.encs fs).length < 2 ^ 63) :
    unmarshalHeader m (Spec.encs fs) =
      match Spec.applyAll m fs with
      | some m' => .ok m'
      | none => .err .wrongWire := by
  have hle : ∀ fs : List Spec.Field, fs.length ≤ (Spec.encs fs).length := by
    intro fs
    induction fs with
    | nil => simp
    | cons f fs ih =>
      have := List.length_pos_iff.2 (enc_ne_nil f)
      simp only [Spec.encs, List.length_cons, List.length_append]; omega
  have := unmarshal_fields fs [] ((Spec.encs fs).length + 1) m hok (by simpa using hl)
    (by have := hle fs; omega)
  simpa [unmarshalHeader] using this

/-! ### Messages and routes -/

theorem mf_1 (d : Bytes) (m : Message) (w : Nat) (i : Int) : messageField d m ((1 : Nat) : Int) w i =
    some (takeNested unmarshalHeader d w i (m.header.getD {}) fun h => { m with header := some h }) :=
  rfl
theorem mf_2 (d : Bytes) (m : Message) (w : Nat) (i : Int) : messageField d m ((2 : Nat) : Int) w i =
    some (takeBytes d w i fun s => { m with body := s }) := rfl
theorem mf_other (d : Bytes) (m : Message) (num w : Nat) (i : Int) (h1 : num ≠ 1) (h2 : num ≠ 2) :
    messageField d m num w i = none := by
  unfold messageField
  rw [if_neg (by omega), if_neg (by omega)]

theorem msgField_ok (x : Spec.MsgField) (h : x.Ok) : x.field.Ok := by
  cases x with
  | header fs => simp [Spec.MsgField.field, Spec.Field.Ok]
  | body s => simp [Spec.MsgField.field, Spec.Field.Ok]
  | other f => exact h.1

theorem wt_ne_two (f : Spec.Field) (k : Nat) (hk : f.num = k) (h : ∀ s, f ≠ .len k s) : wt f ≠ 2 := by
  cases f with
  | len n s => exact absurd (by rw [← hk]; rfl) (h s)
  | _ => simp [wt]

/-- The message decoder on a sequence of well-formed fields. -/
theorem unmarshal_msgFields : ∀ (xs : List Spec.MsgField) (a : Bytes) (n : Nat) (m : Message),
    (∀ x ∈ xs, x.Ok) → (a ++ Spec.encMsg xs).length < 2 ^ 63 → xs.length < n →
    unmarshalLoop (messageField (a ++ Spec.encMsg xs)) (a ++ Spec.encMsg xs) n a.length m =
      match Spec.applyMsgAll m xs with
      | some m' => .ok m'
      | none => .err .wrongWire := by
  intro xs
  induction xs with
  | nil =>
    intro a n m _ _ hn
    obtain ⟨n, rfl⟩ : ∃ k, n = k + 1 := ⟨n - 1, by simp at hn; omega⟩
    simp only [Spec.encMsg, List.append_nil, Spec.applyMsgAll]
    exact unmarshalLoop_end _ a n m
  | cons x xs ih =>
    intro a n m hok hl hn
    obtain ⟨n, rfl⟩ : ∃ k, n = k + 1 := ⟨n - 1, by simp at hn; omega⟩
    have hx : x.Ok := hok x (List.mem_cons_self ..)
    simp only [Spec.encMsg] at hl ⊢
    rw [unmarshalLoop_field _ a (Spec.encMsg xs) x.field n m (msgField_ok x hx) hl]
    have ih' := fun m' => ih (a ++ x.field.enc) n m' (fun y hy => hok y (List.mem_cons_of_mem _ hy))
      (by simpa using hl) (by simpa using hn)
    simp only [List.append_assoc, List.length_append, Int.natCast_add] at ih'
    cases x with
    | header fs =>
      simp only [Spec.MsgField.field, Spec.Field.num, wt] at hl ih' ⊢
      rw [mf_1]
      have hlf : (Spec.encs fs).length < 2 ^ 63 := by
        simp only [Spec.Field.enc, List.length_append] at hl; omega
      have hdec := unmarshalHeader_fields fs (m.header.getD {}) hx hlf
      simp only [Spec.applyMsgAll, Spec.applyMsg]
      cases hap : Spec.applyAll (m.header.getD {}) fs with
      | some h' =>
        rw [hap] at hdec
        rw [takeNested_read unmarshalHeader a (Spec.encs fs) (Spec.encMsg xs) 1 _ h' _ hl hdec]
        simp only [Res.bind_ok, Option.map_some, Option.bind_some]
        exact ih' _
      | none =>
        rw [hap] at hdec
        rw [takeNested_err unmarshalHeader a (Spec.encs fs) (Spec.encMsg xs) 1 _ .wrongWire _ hl hdec]
        rfl
    | body s =>
      simp only [Spec.MsgField.field, Spec.Field.num, wt] at hl ih' ⊢
      rw [mf_2, takeBytes_read a s (Spec.encMsg xs) 2 _ hl]
      simp only [Res.bind_ok, Spec.applyMsgAll, Spec.applyMsg, Option.bind_some]
      exact ih' _
    | other f =>
      simp only [Spec.MsgField.field] at hl ih' ⊢
      simp only [Spec.applyMsgAll, Spec.applyMsg]
      by_cases h1 : f.num = 1
      · rw [h1]
        have hw : wt f ≠ 2 := wt_ne_two f 1 h1 fun s => (hx.2 s).1
        rw [mf_1, takeNested, if_pos hw]
        rfl
      · by_cases h2 : f.num = 2
        · rw [h2]
          have hw : wt f ≠ 2 := wt_ne_two f 2 h2 fun s => (hx.2 s).2
          rw [mf_2, takeBytes, if_pos hw]
          rfl
        · rw [mf_other _ m f.num _ _ h1 h2, if_neg (by omega)]
          simp only [Option.bind_some]
          exact ih' m

theorem encMsg_length (xs : List Spec.MsgField) : xs.length ≤ (Spec.encMsg xs).length := by
  induction xs with
  | nil => simp
  | cons x xs ih =>
    have := List.length_pos_iff.2 (enc_ne_nil x.field)
    simp only [Spec.encMsg, List.length_cons, List.length_append]; omega

theorem unmarshalMessage_fields (xs : List Spec.MsgField) (m : Message) (hok : ∀ x ∈ xs, x.Ok)
    (hl : (Spec.encMsg xs).length < 2 ^ 63) :
    unmarshalMessage m (Spec.encMsg xs) =
      match Spec.applyMsgAll m xs with
      | some m' => .ok m'
      | none => .err .wrongWire := by
  have := unmarshal_msgFields xs [] ((Spec.encMsg xs).length + 1) m hok (by simpa using hl)
    (by have := encMsg_length xs; omega)
  simpa [unmarshalMessage] using this

/-- The request and response decoders on one nested message. -/
theorem unmarshalLoop_one {R : Type} (field : R → Int → Nat → Int → Option (Res (R × Int))) (m : R)
    (num : Nat) (s : Bytes) (x : Message) (set : Message → R) (h0 : 0 < num) (hnum : num < 2 ^ 29)
    (hl : (Spec.lenField num s).length < 2 ^ 63) (hdec : unmarshalMessage {} s = .ok x)
    (hf : ∀ i, field m num 2 i = some (takeNested unmarshalMessage (Spec.lenField num s) 2 i {} set)) :
    unmarshalLoop field (Spec.lenField num s) ((Spec.lenField num s).length + 1) 0 m
      = .ok (set x) := by
  have e : Spec.lenField num s = (Spec.Field.len num s).enc := by
    simp [Spec.lenField, Spec.Field.enc]
  have hok : (Spec.Field.len num s).Ok := ⟨h0, hnum⟩
  rw [e] at hf hl ⊢
  have := unmarshalLoop_field field [] [] (.len num s) (Spec.Field.len num s).enc.length m hok
    (by simpa using hl)
  simp only [List.nil_append, List.append_nil, List.length_nil, Spec.Field.num, wt] at this
  have h00 : ((0 : Nat) : Int) = 0 := rfl
  rw [h00] at this
  rw [this, hf]
  have r := takeNested_read unmarshalMessage [] s [] num {} x set (by simpa using hl) hdec
  simp only [List.nil_append, List.append_nil, List.length_nil, h00] at r
  rw [r]
  simp only [Res.bind_ok, Int.zero_add]
  have hpos := List.length_pos_iff.2 (enc_ne_nil (.len num s))
  obtain ⟨k, hk⟩ : ∃ k, (Spec.Field.len num s).enc.length = k + 1 := ⟨_, (Nat.succ_pred_eq_of_pos hpos).symm⟩
  conv => lhs; arg 3; rw [hk]
  exact unmarshalLoop_end _ _ k _

/-- The decoder of a request or response, whose message has number `k`, on a sequence of well-formed fields. -/
theorem unmarshal_routeFields {R : Type} (field : Bytes → R → Int → Nat → Int → Option (Res (R × Int))) (k : Nat)
    (get : R → Option Message) (put : Option Message → R) (hk : 0 < k ∧ k < 2 ^ 29) (hmk : ∀ m, put (get m) = m)
    (hgm : ∀ x, get (put x) = x)
    (hf : ∀ d m w i, field d m (k : Int) w i = some (takeNested unmarshalMessage d w i ((get m).getD {}) fun x => put (some x)))
    (hof : ∀ d m (num w : Nat) i, num ≠ k → field d m num w i = none) :
    ∀ (xs : List Spec.RouteField) (a : Bytes) (n : Nat) (m : R),
    (∀ x ∈ xs, x.Ok k) → (a ++ Spec.encRoute k xs).length < 2 ^ 63 → xs.length < n →
    unmarshalLoop (field (a ++ Spec.encRoute k xs)) (a ++ Spec.encRoute k xs) n a.length m =
      match Spec.applyRouteAll k (get m) xs with
      | some m' => .ok (put m')
      | none => .err .wrongWire := by
  intro xs
  induction xs with
  | nil =>
    intro a n m _ _ hn
    obtain ⟨n, rfl⟩ : ∃ k, n = k + 1 := ⟨n - 1, by simp at hn; omega⟩
    simp only [Spec.encRoute, List.append_nil, Spec.applyRouteAll, hmk]
    exact unmarshalLoop_end _ a n m
  | cons x xs ih =>
    intro a n m hok hl hn
    obtain ⟨n, rfl⟩ : ∃ k, n = k + 1 := ⟨n - 1, by simp at hn; omega⟩
    have hx : x.Ok k := hok x (List.mem_cons_self ..)
    simp only [Spec.encRoute] at hl ⊢
    have hfo : (x.field k).Ok := by
      cases x with
      | msg ys => exact hk
      | other f => exact hx.1
    rw [unmarshalLoop_field _ a (Spec.encRoute k xs) (x.field k) n m hfo hl]
    have ih' := fun m' => ih (a ++ (x.field k).enc) n m' (fun y hy => hok y (List.mem_cons_of_mem _ hy))
      (by simpa using hl) (by simpa using hn)
    simp only [List.append_assoc, List.length_append, Int.natCast_add] at ih'
    cases x with
    | msg ys =>
      simp only [Spec.RouteField.field, Spec.Field.num, wt] at hl ih' ⊢
      rw [hf]
      have hlf : (Spec.encMsg ys).length < 2 ^ 63 := by
        simp only [Spec.Field.enc, List.length_append] at hl; omega
      have hdec := unmarshalMessage_fields ys ((get m).getD {}) hx hlf
      simp only [Spec.applyRouteAll, Spec.applyRoute]
      cases hap : Spec.applyMsgAll ((get m).getD {}) ys with
      | some h' =>
        rw [hap] at hdec
        rw [takeNested_read unmarshalMessage a (Spec.encMsg ys) (Spec.encRoute k xs) k _ h' _ hl hdec]
        simp only [Res.bind_ok, Option.map_some, Option.bind_some]
        rw [ih', hgm]
      | none =>
        rw [hap] at hdec
        rw [takeNested_err unmarshalMessage a (Spec.encMsg ys) (Spec.encRoute k xs) k _ .wrongWire _ hl hdec]
        rfl
    | other f =>
      simp only [Spec.RouteField.field] at hl ih' ⊢
      simp only [Spec.applyRouteAll, Spec.applyRoute]
      by_cases h1 : f.num = k
      · rw [h1]
        have hw : wt f ≠ 2 := wt_ne_two f k h1 hx.2
        rw [hf, takeNested, if_pos hw, if_pos rfl]
        rfl
      · rw [hof _ _ _ _ _ h1, if_neg h1]
        simp only [Option.bind_some]
        exact ih' m

theorem encRoute_length (k : Nat) (xs : List Spec.RouteField) : xs.length ≤ (Spec.encRoute k xs).length := by
  induction xs with
  | nil => simp
  | cons x xs ih =>
    have := List.length_pos_iff.2 (enc_ne_nil (x.field k))
    simp only [Spec.encRoute, List.length_cons, List.length_append]; omega

theorem unmarshalRouteReq_fields (xs : List Spec.RouteField) (m : RouteReq) (hok : ∀ x ∈ xs, x.Ok 1)
    (hl : (Spec.encRoute 1 xs).length < 2 ^ 63) :
    unmarshalRouteReq m (Spec.encRoute 1 xs) =
      match Spec.applyRouteAll 1 m.msg xs with
      | some x => .ok ⟨x⟩
      | none => .err .wrongWire := by
  have := unmarshal_routeFields routeReqField 1 (·.msg) (⟨·⟩) (by decide) (fun _ => rfl) (fun _ => rfl) (fun _ _ _ _ => rfl)
    (fun d m num w i h => by unfold routeReqField; rw [if_neg (by omega)]) xs [] ((Spec.encRoute 1 xs).length + 1) m hok
    (by simpa using hl) (by have := encRoute_length 1 xs; omega)
  simpa [unmarshalRouteReq] using this

theorem unmarshalRouteRes_fields (xs : List Spec.RouteField) (m : RouteRes) (hok : ∀ x ∈ xs, x.Ok 2)
    (hl : (Spec.encRoute 2 xs).length < 2 ^ 63) :
    unmarshalRouteRes m (Spec.encRoute 2 xs) =
      match Spec.applyRouteAll 2 m.msg xs with
      | some x => .ok ⟨x⟩
      | none => .err .wrongWire := by
  have := unmarshal_routeFields routeResField 2 (·.msg) (⟨·⟩) (by decide) (fun _ => rfl) (fun _ => rfl) (fun _ _ _ _ => rfl)
    (fun d m num w i h => by unfold routeResField; rw [if_neg (by omega)]) xs [] ((Spec.encRoute 2 xs).length + 1) m hok
    (by simpa using hl) (by have := encRoute_length 2 xs; omega)
  simpa [unmarshalRouteRes] using this

end Braid.Wire
