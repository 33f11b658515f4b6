import Verif.Wire.AcceptLoop

/-
Bytes can be read as fields in one way only.
-/
namespace Braid.Wire
open Spec

theorem varint_unique {p q r r' : Bytes} {v w : Nat} (hp : Varint p v) (hq : Varint q w) (h : p ++ r = q ++ r') :
    p = q ∧ v = w ∧ r = r' := by
  have := shape_unique p q r r' hp.1 hq.1 h
  subst this
  exact ⟨rfl, by rw [hp.2.2, hq.2.2], List.append_cancel_left h⟩

theorem tag_unique {p q r r' : Bytes} {n w n' w' : Nat} (hp : Tag p n w) (hq : Tag q n' w') (h : p ++ r = q ++ r') :
    p = q ∧ n = n' ∧ w = w' ∧ r = r' := by
  obtain ⟨v, h1, rfl, rfl⟩ := hp
  obtain ⟨v', h2, rfl, rfl⟩ := hq
  obtain ⟨h3, h4, h5⟩ := varint_unique h1 h2 h
  exact ⟨h3, by rw [h4], by rw [h4], h5⟩

/-- Bytes of one length at the beginning of the same bytes. -/
theorem fixed_unique {s s' r r' : Bytes} {n : Nat} (hs : s.length = n) (hs' : s'.length = n) (h : s ++ r = s' ++ r') :
    s = s' ∧ r = r' := List.append_inj h (by omega)

mutual
theorem reads_unique : ∀ (f : Field) (x : Bytes), f.Reads x → ∀ (g : Field) (y r r' : Bytes), g.Reads y → x ++ r = y ++ r' →
    f = g ∧ x = y ∧ r = r'
  | .varint n v, x, hf, g, y, r, r', hg, h => by
    obtain ⟨t, p, rfl, ht, hp⟩ := hf
    obtain ⟨t', y', rfl, ht', hy'⟩ := (reads_iff g y).1 hg
    simp only [List.append_assoc] at h
    obtain ⟨rfl, h1, h2, h⟩ := tag_unique ht ht' h
    cases g <;> simp only [wt] at h2 <;> try omega
    simp only [Field.num] at h1
    obtain ⟨rfl, rfl, rfl⟩ := varint_unique hp hy' h
    rw [h1]
    exact ⟨rfl, rfl, rfl⟩
  | .fixed64 n s, x, hf, g, y, r, r', hg, h => by
    obtain ⟨t, rfl, ht, hp⟩ := hf
    obtain ⟨t', y', rfl, ht', hy'⟩ := (reads_iff g y).1 hg
    simp only [List.append_assoc] at h
    obtain ⟨rfl, h1, h2, h⟩ := tag_unique ht ht' h
    cases g <;> simp only [wt] at h2 <;> try omega
    simp only [Field.num] at h1
    obtain ⟨rfl, hy'⟩ := hy'
    obtain ⟨rfl, rfl⟩ := fixed_unique hp hy' h
    rw [h1]
    exact ⟨rfl, rfl, rfl⟩
  | .len n s, x, hf, g, y, r, r', hg, h => by
    obtain ⟨t, p, rfl, ht, hp⟩ := hf
    obtain ⟨t', y', rfl, ht', hy'⟩ := (reads_iff g y).1 hg
    simp only [List.append_assoc] at h
    obtain ⟨rfl, h1, h2, h⟩ := tag_unique ht ht' h
    cases g <;> simp only [wt] at h2 <;> try omega
    simp only [Field.num] at h1
    obtain ⟨q, rfl, hy'⟩ := hy'
    simp only [List.append_assoc] at h
    obtain ⟨rfl, h3, h⟩ := varint_unique hp hy' h
    obtain ⟨rfl, rfl⟩ := fixed_unique h3 rfl h
    rw [h1]
    exact ⟨rfl, rfl, rfl⟩
  | .group n fs, x, hf, g, y, r, r', hg, h => by
    obtain ⟨t, b, e, k, rfl, ht, hb, he⟩ := hf
    obtain ⟨t', y', rfl, ht', hy'⟩ := (reads_iff g y).1 hg
    simp only [List.append_assoc] at h
    obtain ⟨rfl, h1, h2, h⟩ := tag_unique ht ht' h
    cases g <;> simp only [wt] at h2 <;> try omega
    simp only [Field.num] at h1
    obtain ⟨b', e', k', rfl, hb', he'⟩ := hy'
    simp only [List.append_assoc] at h
    obtain ⟨rfl, rfl, rfl, rfl⟩ := readss_unique fs b hb _ b' e e' r r' k k' hb' he he' h
    rw [h1]
    exact ⟨rfl, rfl, rfl⟩
  | .fixed32 n s, x, hf, g, y, r, r', hg, h => by
    obtain ⟨t, rfl, ht, hp⟩ := hf
    obtain ⟨t', y', rfl, ht', hy'⟩ := (reads_iff g y).1 hg
    simp only [List.append_assoc] at h
    obtain ⟨rfl, h1, h2, h⟩ := tag_unique ht ht' h
    cases g <;> simp only [wt] at h2 <;> try omega
    simp only [Field.num] at h1
    obtain ⟨rfl, hy'⟩ := hy'
    obtain ⟨rfl, rfl⟩ := fixed_unique hp hy' h
    rw [h1]
    exact ⟨rfl, rfl, rfl⟩
theorem readss_unique : ∀ (fs : List Field) (x : Bytes), Readss fs x → ∀ (gs : List Field) (y e e' r r' : Bytes) (k k' : Nat),
    Readss gs y → Tag e k 4 → Tag e' k' 4 → x ++ (e ++ r) = y ++ (e' ++ r') → fs = gs ∧ x = y ∧ e = e' ∧ r = r'
  | [], x, hf, [], y, e, e', r, r', k, k', hg, he, he', h => by
    have hf : x = [] := hf
    have hg : y = [] := hg
    subst hf hg
    obtain ⟨rfl, -, -, rfl⟩ := tag_unique he he' h
    exact ⟨rfl, rfl, rfl, rfl⟩
  | [], x, hf, g :: gs, y, e, e', r, r', k, k', hg, he, he', h => by
    have hf : x = [] := hf
    subst hf
    obtain ⟨y1, y2, rfl, h1, -⟩ := (readss_cons _ _ _).1 hg
    obtain ⟨t, z, rfl, ht, -⟩ := (reads_iff g y1).1 h1
    simp only [List.append_assoc, List.nil_append] at h
    obtain ⟨-, -, h2, -⟩ := tag_unique he ht h
    exact absurd h2.symm (wt_ne_four g)
  | f :: fs, x, hf, [], y, e, e', r, r', k, k', hg, he, he', h => by
    have hg : y = [] := hg
    subst hg
    obtain ⟨y1, y2, rfl, h1, -⟩ := (readss_cons _ _ _).1 hf
    obtain ⟨t, z, rfl, ht, -⟩ := (reads_iff f y1).1 h1
    simp only [List.append_assoc, List.nil_append] at h
    obtain ⟨-, -, h2, -⟩ := tag_unique ht he' h
    exact absurd h2 (wt_ne_four f)
  | f :: fs, x, hf, g :: gs, y, e, e', r, r', k, k', hg, he, he', h => by
    obtain ⟨x1, x2, rfl, h1, h2⟩ := (readss_cons _ _ _).1 hf
    obtain ⟨y1, y2, rfl, h3, h4⟩ := (readss_cons _ _ _).1 hg
    simp only [List.append_assoc] at h
    obtain ⟨rfl, rfl, h'⟩ := reads_unique f x1 h1 g y1 _ _ h3 h
    obtain ⟨rfl, rfl, rfl, rfl⟩ := readss_unique fs x2 h2 gs y2 e e' r r' k k' h4 he he' h'
    exact ⟨rfl, rfl, rfl, rfl⟩
end

theorem readss_append : ∀ (fs gs : List Field) (x y : Bytes), Readss fs x → Readss gs y → Readss (fs ++ gs) (x ++ y)
  | [], gs, x, y, hf, hg => by
    have hf : x = [] := hf
    subst hf
    exact hg
  | f :: fs, gs, x, y, hf, hg => by
    obtain ⟨x1, x2, rfl, h1, h2⟩ := (readss_cons _ _ _).1 hf
    rw [List.append_assoc]
    exact (readss_cons _ _ _).2 ⟨x1, x2 ++ y, rfl, h1, readss_append fs gs x2 y h2 hg⟩

/-- Whatever follows, the bytes of fields are read as these fields. -/
theorem readss_prefix : ∀ (fs : List Field) (x : Bytes), Readss fs x → ∀ (hs : List Field) (y : Bytes), Readss hs (x ++ y) →
    ∃ gs, hs = fs ++ gs ∧ Readss gs y
  | [], x, hf, hs, y, hh => by
    have hf : x = [] := hf
    subst hf
    exact ⟨hs, rfl, hh⟩
  | f :: fs, x, hf, hs, y, hh => by
    obtain ⟨x1, x2, rfl, h1, h2⟩ := (readss_cons _ _ _).1 hf
    cases hs with
    | nil =>
      have hh : (x1 ++ x2) ++ y = [] := hh
      rw [List.append_assoc] at hh
      exact absurd (List.append_eq_nil_iff.1 hh).1 (reads_ne h1)
    | cons g hs =>
      obtain ⟨y1, y2, h3, h4, h5⟩ := (readss_cons _ _ _).1 hh
      rw [List.append_assoc] at h3
      obtain ⟨rfl, rfl, rfl⟩ := reads_unique f x1 h1 g y1 _ _ h4 h3
      obtain ⟨gs, rfl, h6⟩ := readss_prefix fs x2 h2 hs y h5
      exact ⟨gs, rfl, h6⟩

/-- There is only one reading. -/
theorem readss_one {fs gs : List Field} {x : Bytes} (hf : Readss fs x) (hg : Readss gs x) : gs = fs := by
  obtain ⟨hs, rfl, h⟩ := readss_prefix fs x hf gs [] (by simpa using hg)
  rw [(readss_nil hs).1 h, List.append_nil]

theorem all_append {M : Type} (R : M → Field → M → Prop) : ∀ (fs gs : List Field) (m m' : M),
    All R m (fs ++ gs) m' ↔ ∃ x, All R m fs x ∧ All R x gs m'
  | [], gs, m, m' => by
    constructor
    · intro h; exact ⟨m, rfl, h⟩
    · rintro ⟨x, hx, h⟩
      have hx : x = m := hx
      subst hx; exact h
  | f :: fs, gs, m, m' => by
    simp only [List.cons_append, all_cons, all_append R fs gs]
    constructor
    · rintro ⟨x, h1, y, h2, h3⟩; exact ⟨y, ⟨x, h1, h2⟩, h3⟩
    · rintro ⟨y, ⟨x, h1, h2⟩, h3⟩; exact ⟨x, h1, y, h2, h3⟩

theorem top_append (fs gs : List Field) : Top (fs ++ gs) ↔ Top fs ∧ Top gs := by
  unfold Top
  constructor
  · intro h; exact ⟨fun f hf => h f (by simp [hf]), fun f hf => h f (by simp [hf])⟩
  · rintro ⟨h1, h2⟩ f hf
    rcases List.mem_append.1 hf with h | h
    · exact h1 f h
    · exact h2 f h

/-- A relation in which a field has at most one effect. -/
def Functional {M : Type} (R : M → Field → M → Prop) : Prop := ∀ m f x y, R m f x → R m f y → x = y

theorem all_functional {M : Type} {R : M → Field → M → Prop} (hR : Functional R) : ∀ (fs : List Field) (m x y : M),
    All R m fs x → All R m fs y → x = y
  | [], m, x, y, hx, hy => by
    have hx : x = m := hx
    have hy : y = m := hy
    rw [hx, hy]
  | f :: fs, m, x, y, hx, hy => by
    obtain ⟨a, h1, h2⟩ := (all_cons _ _ _ _ _).1 hx
    obtain ⟨b, h3, h4⟩ := (all_cons _ _ _ _ _).1 hy
    rw [hR m f b a h3 h1] at h4
    exact all_functional hR fs a x y h2 h4

/-- Reading a concatenation whose first part is read: the rest goes on from there. -/
theorem concat_iff {M : Type} {R : M → Field → M → Prop} (hR : Functional R) (m m1 m' : M) (d e : Bytes)
    (h : ∃ fs, Readss fs d ∧ Top fs ∧ All R m fs m1) :
    (∃ fs, Readss fs (d ++ e) ∧ Top fs ∧ All R m fs m') ↔ ∃ fs, Readss fs e ∧ Top fs ∧ All R m1 fs m' := by
  obtain ⟨fs, h1, h2, h3⟩ := h
  constructor
  · rintro ⟨hs, h4, h5, h6⟩
    obtain ⟨gs, rfl, h7⟩ := readss_prefix fs d h1 hs e h4
    obtain ⟨x, h8, h9⟩ := (all_append R fs gs m m').1 h6
    rw [all_functional hR fs m x m1 h8 h3] at h9
    exact ⟨gs, h7, ((top_append fs gs).1 h5).2, h9⟩
  · rintro ⟨gs, h4, h5, h6⟩
    exact ⟨fs ++ gs, readss_append fs gs d e h1 h4, (top_append fs gs).2 ⟨h2, h5⟩, (all_append R fs gs m m').2 ⟨m1, h3, h6⟩⟩

/-! ### The format is a part of what is read -/

theorem strict_varint {p : Bytes} {v : Nat} (h : StrictVarint p v) : Varint p v :=
  ⟨h.1, h.2.1, by rw [← h.2.2.1, Nat.mod_eq_of_lt h.2.2.2]⟩

theorem strict_tag {t : Bytes} {n w : Nat} (h : StrictTag t n w) (hw : w < 8) : Tag t n w :=
  ⟨n * 8 + w, strict_varint h.1, by omega, by have := h.2.2; omega⟩

mutual
theorem strict_reads : ∀ (f : Field) (x : Bytes), f.Strict x → f.Reads x ∧ 0 < f.num ∧ f.num < 2 ^ 29
  | .varint n v, x, h => by
    obtain ⟨t, p, rfl, ht, hp⟩ := h
    exact ⟨⟨t, p, rfl, strict_tag ht (by omega), strict_varint hp⟩, ht.2⟩
  | .fixed64 n s, x, h => by
    obtain ⟨t, rfl, ht, hp⟩ := h
    exact ⟨⟨t, rfl, strict_tag ht (by omega), hp⟩, ht.2⟩
  | .len n s, x, h => by
    obtain ⟨t, p, rfl, ht, hp⟩ := h
    exact ⟨⟨t, p, rfl, strict_tag ht (by omega), strict_varint hp⟩, ht.2⟩
  | .group n fs, x, h => by
    obtain ⟨t, b, e, rfl, ht, hb, he⟩ := h
    exact ⟨⟨t, b, e, n, rfl, strict_tag ht (by omega), (stricts_reads fs b hb).1, strict_tag he (by omega)⟩, ht.2⟩
  | .fixed32 n s, x, h => by
    obtain ⟨t, rfl, ht, hp⟩ := h
    exact ⟨⟨t, rfl, strict_tag ht (by omega), hp⟩, ht.2⟩
theorem stricts_reads : ∀ (fs : List Field) (x : Bytes), Stricts fs x → Readss fs x ∧ Top fs
  | [], x, h => ⟨h, by simp [Top]⟩
  | f :: fs, x, h => by
    obtain ⟨y, z, rfl, hy, hz⟩ := h
    obtain ⟨h1, h2, h3⟩ := strict_reads f y hy
    obtain ⟨h4, h5⟩ := stricts_reads fs z hz
    exact ⟨(readss_cons _ _ _).2 ⟨y, z, rfl, h1, h4⟩, (top_cons _ _).2 ⟨⟨h2, by omega⟩, h5⟩⟩
end

end Braid.Wire
