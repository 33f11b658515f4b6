import Verif.Wire.AcceptSwitch
import Verif.Wire.Round

/-
What a decoder returns has an encoding that is not longer than its input.
-/
namespace Braid.Wire
open Spec

theorem groups_lt : ∀ p : Bytes, groups p < 128 ^ p.length
  | [] => by simp [groups]
  | b :: p => by
    have := groups_lt p
    simp only [groups, List.length_cons, Nat.pow_succ]
    omega

/-- The shortest form of a number below 128^(k+1) has at most k + 1 bytes. -/
theorem svarint_le : ∀ (k v : Nat), v < 128 ^ (k + 1) → (Spec.varint v).length ≤ k + 1
  | 0, v, h => by
    unfold Spec.varint
    rw [if_pos (by simpa using h)]
    simp
  | k + 1, v, h => by
    unfold Spec.varint
    split
    · simp
    · have := svarint_le k (v / 128) (by rw [Nat.pow_succ] at h; omega)
      simp only [List.length_cons]
      omega

theorem svarint_lt : ∀ v : Nat, v < 128 ^ (Spec.varint v).length := by
  intro v
  induction v using Nat.strongRecOn with
  | _ v ih =>
    unfold Spec.varint
    split
    · simpa using (by assumption)
    · have := ih (v / 128) (by omega)
      simp only [List.length_cons, Nat.pow_succ]
      omega

theorem svarint_pos (v : Nat) : 0 < (Spec.varint v).length := by
  unfold Spec.varint; split <;> simp

/-- No varint of a number is shorter than the shortest form. -/
theorem shortest {p : Bytes} {v : Nat} (h : Varint p v) : (Spec.varint v).length ≤ p.length := by
  have hp := List.length_pos_iff.2 (vne h)
  have h1 := groups_lt p
  have h2 : v ≤ groups p := by rw [h.2.2]; exact Nat.mod_le _ _
  obtain ⟨k, hk⟩ : ∃ k, p.length = k + 1 := ⟨p.length - 1, by omega⟩
  rw [hk] at h1 ⊢
  exact svarint_le k v (by omega)

/-- The shortest form of a larger number is not shorter. -/
theorem svarint_mono {a b : Nat} (h : a ≤ b) : (Spec.varint a).length ≤ (Spec.varint b).length := by
  have hp := svarint_pos b
  have h1 := svarint_lt b
  obtain ⟨k, hk⟩ : ∃ k, (Spec.varint b).length = k + 1 := ⟨(Spec.varint b).length - 1, by omega⟩
  rw [hk] at h1 ⊢
  exact svarint_le k a (by omega)

theorem svarint_add (a b : Nat) : (Spec.varint (a + b)).length ≤ (Spec.varint a).length + (Spec.varint b).length := by
  have ha := svarint_pos a
  have hb := svarint_pos b
  have h1 := svarint_lt a
  have h2 := svarint_lt b
  obtain ⟨k, hk⟩ : ∃ k, (Spec.varint a).length + (Spec.varint b).length = k + 1 := ⟨(Spec.varint a).length + (Spec.varint b).length - 1, by omega⟩
  rw [hk]
  refine svarint_le k _ ?_
  rw [← hk, Nat.pow_add]
  have h3 : 2 ≤ 128 ^ (Spec.varint a).length := by
    calc 2 ≤ 128 ^ 1 := by decide
      _ ≤ _ := Nat.pow_le_pow_right (by decide) ha
  have h4 : 2 ≤ 128 ^ (Spec.varint b).length := by
    calc 2 ≤ 128 ^ 1 := by decide
      _ ≤ _ := Nat.pow_le_pow_right (by decide) hb
  generalize 128 ^ (Spec.varint a).length = x at h1 h3 ⊢
  generalize 128 ^ (Spec.varint b).length = y at h2 h4 ⊢
  have h5 : x + y ≤ x * y := by
    obtain ⟨x, rfl⟩ : ∃ z, x = z + 2 := ⟨x - 2, by omega⟩
    obtain ⟨y, rfl⟩ : ∃ z, y = z + 2 := ⟨y - 2, by omega⟩
    have : (x + 2) * (y + 2) = x * y + 2 * x + 2 * y + 4 := by
      rw [Nat.add_mul, Nat.mul_add, Nat.mul_add]; omega
    rw [this]
    omega
  omega

/-- The bytes of a field of bytes, in the shortest form, with a tag of one byte. -/
def cost (n : Nat) : Nat := 1 + (Spec.varint n).length + n

theorem lenField_cost {k : Nat} (s : Bytes) (hk : k < 15) : (lenField k s).length = cost s.length := by
  unfold lenField cost
  rw [show Spec.varint (k * 8 + 2) = [UInt8.ofNat (k * 8 + 2)] by unfold Spec.varint; rw [if_pos (by omega)]]
  simp; omega

theorem optLen_cost {k : Nat} (s : Bytes) (hk : k < 15) : (optLen k s).length ≤ cost s.length := by
  unfold optLen
  split
  · simp
  · rw [lenField_cost s hk]; omega

theorem cost_mono {a b : Nat} (h : a ≤ b) : cost a ≤ cost b := by
  have := svarint_mono h
  unfold cost; omega

theorem cost_add (a b : Nat) : cost (a + b) ≤ cost a + cost b := by
  have := svarint_add a b
  unfold cost; omega

theorem reads_cost {k : Nat} {s x : Bytes} (h : (Field.len k s).Reads x) : cost s.length ≤ x.length := by
  obtain ⟨t, p, rfl, ht, hp⟩ := h
  have h1 := List.length_pos_iff.2 (tag_ne ht)
  have h2 := shortest hp
  unfold cost
  simp only [List.length_append]
  omega

theorem twos_of {v : Nat} (h : v < 2 ^ 64) : twos (Int64.ofInt v) = v := by
  rw [← int64_of, ← u64_eq]
  simp [u64]
  omega

/-- A field adds at most its own bytes to the encoding of a header. -/
theorem header_field_le (m : Header) (f : Field) (m' : Header) (x : Bytes) (hx : f.Reads x) (h : apply m f = some m') :
    (Spec.header m').length ≤ (Spec.header m).length + x.length := by
  by_cases hn : f.num ∈ headerNums
  · cases f with
    | len k s =>
      have hc := reads_cost hx
      simp only [Field.num, headerNums, List.mem_cons, List.not_mem_nil, or_false] at hn
      rcases hn with rfl | rfl | rfl | rfl | rfl | rfl | rfl | rfl | rfl | rfl
      · have ho := optLen_cost (k := 1) s (by omega)
        cases h; simp only [Spec.header, List.length_append]; omega
      · have ho := optLen_cost (k := 2) s (by omega)
        cases h; simp only [Spec.header, List.length_append]; omega
      · have ho := optLen_cost (k := 3) s (by omega)
        cases h; simp only [Spec.header, List.length_append]; omega
      · have ho := optLen_cost (k := 4) s (by omega)
        cases h; simp only [Spec.header, List.length_append]; omega
      · have ho := optLen_cost (k := 7) s (by omega)
        cases h; simp only [Spec.header, List.length_append]; omega
      · have ho := optLen_cost (k := 8) s (by omega)
        cases h; simp only [Spec.header, List.length_append]; omega
      · have ho := optLen_cost (k := 9) s (by omega)
        cases h; simp only [Spec.header, List.length_append]; omega
      · have ho := optLen_cost (k := 10) s (by omega)
        cases h; simp only [Spec.header, List.length_append]; omega
      · cases h
      · have ho := optLen_cost (k := 12) s (by omega)
        cases h; simp only [Spec.header, List.length_append]; omega
    | varint k v =>
      simp only [Field.num, headerNums, List.mem_cons, List.not_mem_nil, or_false] at hn
      rcases hn with rfl | rfl | rfl | rfl | rfl | rfl | rfl | rfl | rfl | rfl
      any_goals (cases h; done)
      obtain ⟨t, p, rfl, ht, hp⟩ := hx
      have h1 := List.length_pos_iff.2 (tag_ne ht)
      have h2 := shortest hp
      have h3 : apply m (.varint 11 v) = some { m with timestamp := Int64.ofInt v } := rfl
      rw [h3] at h
      injection h with h
      subst h
      have h4 : (if Int64.ofInt (v : Int) = 0 then [] else varintField 11 (twos (Int64.ofInt v))).length
          ≤ 1 + (Spec.varint v).length := by
        split
        · simp
        · rw [twos_of (vlt hp)]
          unfold varintField
          rw [show Spec.varint (11 * 8) = [UInt8.ofNat (11 * 8)] by unfold Spec.varint; rw [if_pos (by omega)]]
          simp; omega
      simp only [Spec.header, List.length_append] at h4 ⊢
      omega
    | fixed64 k s =>
      simp only [Field.num, headerNums, List.mem_cons, List.not_mem_nil, or_false] at hn
      rcases hn with rfl | rfl | rfl | rfl | rfl | rfl | rfl | rfl | rfl | rfl <;> cases h
    | group k fs =>
      simp only [Field.num, headerNums, List.mem_cons, List.not_mem_nil, or_false] at hn
      rcases hn with rfl | rfl | rfl | rfl | rfl | rfl | rfl | rfl | rfl | rfl <;> cases h
    | fixed32 k s =>
      simp only [Field.num, headerNums, List.mem_cons, List.not_mem_nil, or_false] at hn
      rcases hn with rfl | rfl | rfl | rfl | rfl | rfl | rfl | rfl | rfl | rfl <;> cases h
  · rw [(apply_other m f m' hn).1 h]; omega

/-- Fields add at most their own bytes. -/
theorem all_le {M : Type} (R : M → Field → M → Prop) (size : M → Nat)
    (h : ∀ m f m' x, f.Reads x → R m f m' → size m' ≤ size m + x.length) :
    ∀ (fs : List Field) (m m' : M) (d : Bytes), Readss fs d → All R m fs m' → size m' ≤ size m + d.length
  | [], m, m', d, hr, ha => by
    have ha : m' = m := ha
    rw [ha]; omega
  | f :: fs, m, m', d, hr, ha => by
    obtain ⟨x, y, rfl, hx, hy⟩ := (readss_cons _ _ _).1 hr
    obtain ⟨m1, h1, h2⟩ := (all_cons _ _ _ _ _).1 ha
    have h3 := h m f m1 x hx h1
    have h4 := all_le R size h fs m1 m' y hy h2
    rw [List.length_append]
    omega

theorem header_le {m : Header} {d : Bytes} {m' : Header} (h : HeaderOf m d m') :
    (Spec.header m').length ≤ (Spec.header m).length + d.length := by
  obtain ⟨fs, h1, -, h2⟩ := h
  exact all_le Applies (fun m => (Spec.header m).length) (fun m f m' x hx ha => header_field_le m f m' x hx ha) fs m m' d h1
    ((all_apply m fs m').2 h2)

theorem header_empty : Spec.header {} = [] := by simp [Spec.header, optLen]

theorem message_step_le (m : Message) (f : Field) (m' : Message) (x : Bytes) (hx : f.Reads x) (h : MessageStep m f m') :
    (Spec.message m').length ≤ (Spec.message m).length + x.length := by
  have hopt := fun s : Bytes => optLen_cost (k := 2) s (by omega)
  by_cases h1 : ∃ s, f = .len 1 s
  · obtain ⟨s, rfl⟩ := h1
    obtain ⟨hd, hh, rfl⟩ := h
    have hc := reads_cost hx
    have hl := header_le hh
    obtain ⟨mh, mb⟩ := m
    cases mh with
    | none =>
      simp only [Option.getD_none, header_empty, List.length_nil, Nat.zero_add] at hl
      have := cost_mono hl
      simp only [Spec.message, List.length_append, lenField_cost (k := 1) _ (show 1 < 15 by omega), List.length_nil]
      omega
    | some h0 =>
      simp only [Option.getD_some] at hl
      have h1 := cost_mono hl
      have h2 := cost_add (Spec.header h0).length s.length
      simp only [Spec.message, List.length_append, lenField_cost (k := 1) _ (show 1 < 15 by omega)]
      omega
  · by_cases h2 : ∃ s, f = .len 2 s
    · obtain ⟨s, rfl⟩ := h2
      have h : m' = { m with body := s } := h
      subst h
      have hc := reads_cost hx
      have := hopt s
      simp only [Spec.message, List.length_append]
      omega
    · have h : m' = m := by
        unfold MessageStep at h
        split at h
        · exact absurd ⟨_, rfl⟩ h1
        · exact absurd ⟨_, rfl⟩ h2
        · exact h.2.2
      rw [h]; omega

theorem message_le {m : Message} {d : Bytes} {m' : Message} (h : MessageOf m d m') :
    (Spec.message m').length ≤ (Spec.message m).length + d.length := by
  obtain ⟨fs, h1, -, h2⟩ := h
  exact all_le MessageStep (fun m => (Spec.message m).length) message_step_le fs m m' d h1 h2

theorem message_empty : Spec.message {} = [] := by simp [Spec.message, optLen]

/-- The encoding of the message of a request or response. -/
def routeBytes (k : Nat) : Option Message → Bytes
  | some x => lenField k (Spec.message x)
  | none => []

theorem route_step_le (k : Nat) (hk : k < 15) (m : Option Message) (f : Field) (m' : Option Message) (x : Bytes)
    (hx : f.Reads x) (h : RouteStep k m f m') : (routeBytes k m').length ≤ (routeBytes k m).length + x.length := by
  rcases h with ⟨s, y, rfl, hy, rfl⟩ | ⟨-, rfl⟩
  · have hc := reads_cost hx
    have hl := message_le hy
    cases m with
    | none =>
      simp only [Option.getD_none, message_empty, List.length_nil, Nat.zero_add] at hl
      have := cost_mono hl
      simp only [routeBytes, lenField_cost _ hk, List.length_nil]
      omega
    | some h0 =>
      simp only [Option.getD_some] at hl
      have h1 := cost_mono hl
      have h2 := cost_add (Spec.message h0).length s.length
      simp only [routeBytes, lenField_cost _ hk]
      omega
  · omega

theorem route_le (k : Nat) (hk : k < 15) {m : Option Message} {d : Bytes} {m' : Option Message} (h : RouteOf k m d m') :
    (routeBytes k m').length ≤ (routeBytes k m).length + d.length := by
  obtain ⟨fs, h1, -, h2⟩ := h
  exact all_le (RouteStep k) (fun m => (routeBytes k m).length) (route_step_le k hk) fs m m' d h1 h2

end Braid.Wire
