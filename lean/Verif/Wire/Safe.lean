import Verif.Wire.Enc

/-
Helper lemmas for C46: the decoders never index out of range and always make progress.
-/
namespace Braid.Wire

/-- An outcome that is an error, or a value satisfying `P`; neither a panic nor a loop that did not
end. -/
def Safe {α : Type} (r : Res α) (P : α → Prop) : Prop :=
  match r with
  | .ok a => P a
  | .err _ => True
  | .panic => False
  | .fuel => False

theorem Safe.bind {α β : Type} {r : Res α} {f : α → Res β} {P : α → Prop} {Q : β → Prop}
    (h : Safe r P) (hf : ∀ a, P a → Safe (f a) Q) : Safe (r.bind f) Q := by
  cases r with
  | ok a => exact hf a h
  | err e => exact h
  | panic => exact h
  | fuel => exact h

theorem Safe.mono {α : Type} {r : Res α} {P Q : α → Prop} (h : Safe r P) (hf : ∀ a, P a → Q a) :
    Safe r Q := by
  cases r with
  | ok a => exact hf a h
  | err e => exact h
  | panic => exact h
  | fuel => exact h

theorem idx_safe (d : Bytes) (i : Int) (h0 : 0 ≤ i) (h1 : i < d.length) :
    Safe (idx d i) fun _ => True := by
  have : i.toNat < d.length := by omega
  simp [idx, h0, List.getElem?_eq_getElem this, Safe]

theorem slice_safe (d : Bytes) (i j : Int) (h0 : 0 ≤ i) (h1 : i ≤ j) (h2 : j ≤ d.length) :
    Safe (slice d i j) fun s => (s.length : Int) = j - i := by
  simp only [slice, h0, h1, h2, and_self, if_true, Safe]
  simp; omega

theorem varint_safe (d : Bytes) (shift : Nat) : ∀ (i : Int) (acc : Nat), 0 ≤ i → 
    Safe (varint d i shift acc) fun r => i < r.2 ∧ r.2 ≤ d.length := by
  induction h : 64 - shift using Nat.strongRecOn generalizing shift with
  | _ n ih =>
    intro i acc hi
    rw [varint]
    split
    · trivial
    · split
      · trivial
      · rename_i h1 h2
        refine (idx_safe d i hi (by omega)).bind fun b _ => ?_
        split
        · simp only [Safe]; omega
        · exact (ih (64 - (shift + 7)) (by omega) (shift + 7) rfl (i + 1) _ (by omega)).mono
            fun r hr => by omega

theorem skipVarint_safe (d : Bytes) (shift : Nat) : ∀ (i : Int), 0 ≤ i →
    Safe (skipVarint d i shift) fun r => i < r ∧ r ≤ d.length := by
  induction h : 64 - shift using Nat.strongRecOn generalizing shift with
  | _ n ih =>
    intro i hi
    rw [skipVarint]
    split
    · trivial
    · split
      · trivial
      · rename_i h1 h2
        refine (idx_safe d i hi (by omega)).bind fun b _ => ?_
        split
        · simp only [Safe]; omega
        · exact (ih (64 - (shift + 7)) (by omega) (shift + 7) rfl (i + 1) (by omega)).mono
            fun r hr => by omega

theorem toInt64_range (x : Nat) (h : ¬ toInt64 x < 0) : 0 ≤ toInt64 x := by omega

/-- The sum of two non-negative `int`s: exact, or negative. -/
theorem wrapInt_add (i n : Int) (hi : 0 ≤ i) (hi2 : i < 2 ^ 63) (hn : 0 ≤ n) (hn2 : n < 2 ^ 63) :
    (i + n < 2 ^ 63 ∧ wrapInt (i + n) = i + n) ∨ wrapInt (i + n) < 0 := by
  simp only [wrapInt]; omega

theorem varint_lt (d : Bytes) (shift : Nat) : ∀ (i : Int) (acc : Nat), acc < 2 ^ 64 →
    ∀ v i', varint d i shift acc = .ok (v, i') → v < 2 ^ 64 := by
  induction h : 64 - shift using Nat.strongRecOn generalizing shift with
  | _ n ih =>
    intro i acc ha v i' hv
    rw [varint] at hv
    split at hv
    · cases hv
    · split at hv
      · cases hv
      · cases hb : idx d i with
        | ok b =>
          rw [hb, Res.bind_ok] at hv
          have hlt : acc ||| ((b.toNat &&& 0x7f) <<< shift) % 2 ^ 64 < 2 ^ 64 :=
            Nat.or_lt_two_pow ha (Nat.mod_lt _ (by decide))
          split at hv
          · simp only [Res.ok.injEq, Prod.mk.injEq] at hv
            omega
          · exact ih _ (by omega) (shift + 7) rfl _ _ hlt _ _ hv
        | err e => rw [hb] at hv; cases hv
        | panic => rw [hb] at hv; cases hv
        | fuel => rw [hb] at hv; cases hv

theorem varint_safe' (d : Bytes) (i : Int) (hi : 0 ≤ i) :
    Safe (varint d i 0 0) fun r => i < r.2 ∧ r.2 ≤ d.length ∧ toInt64 r.1 < 2 ^ 63 := by
  have h := varint_safe d 0 i 0 hi
  cases hv : varint d i 0 0 with
  | ok r =>
    rw [hv] at h
    have := varint_lt d 0 i 0 (by decide) r.1 r.2 hv
    simp only [Safe] at h ⊢
    refine ⟨h.1, h.2, ?_⟩
    simp only [toInt64]
    split <;> omega
  | err e => trivial
  | panic => rw [hv] at h; exact h
  | fuel => rw [hv] at h; exact h

theorem bytesField_safe (d : Bytes) (i : Int) (hd : d.length < 2 ^ 63) (hi : 0 ≤ i) :
    Safe (bytesField d i) fun r => i < r.2 ∧ r.2 ≤ d.length ∧ r.1.length ≤ d.length := by
  simp only [bytesField]
  refine (varint_safe' d i hi).bind fun r hr => ?_
  obtain ⟨n, j⟩ := r
  simp only at hr ⊢
  split
  · trivial
  · split
    · trivial
    · split
      · trivial
      · rename_i h1 h2 h3
        have hw := wrapInt_add j (toInt64 n) (by omega) (by omega) (by omega) hr.2.2
        have hw' : wrapInt (j + toInt64 n) = j + toInt64 n := by omega
        rw [hw']
        rw [hw'] at h3
        refine (slice_safe d j _ (by omega) (by omega) (by omega)).bind fun s hs => ?_
        simp only [Safe]
        omega

theorem skipOne_safe (d : Bytes) (hd : d.length < 2 ^ 63) (wt : Nat) (i : Int) (depth : Nat)
    (hi : 0 ≤ i) (hi2 : i ≤ d.length) :
    Safe (skipOne d wt i depth) fun r => (i ≤ r.1 ∧ r.1 < 2 ^ 63) ∨ r.1 < 0 := by
  unfold skipOne
  split
  · exact (skipVarint_safe d 0 i hi).bind fun r hr => by simp only [Safe]; omega
  · have := wrapInt_add i 8 hi (by omega) (by omega) (by omega)
    simp only [Safe]; omega
  · refine (varint_safe' d i hi).bind fun r hr => ?_
    obtain ⟨n, j⟩ := r
    simp only at hr ⊢
    split
    · trivial
    · have := wrapInt_add j (toInt64 n) (by omega) (by omega) (by omega) hr.2.2
      simp only [Safe]; omega
  · simp only [Safe]; omega
  · split
    · trivial
    · simp only [Safe]; omega
  · have := wrapInt_add i 4 hi (by omega) (by omega) (by omega)
    simp only [Safe]; omega
  · trivial

theorem skipLoop_safe (d : Bytes) (hd : d.length < 2 ^ 63) : ∀ (n : Nat) (i : Int) (depth : Nat),
    0 ≤ i → (d.length : Int) < n + i → n ≠ 0 →
    Safe (skipLoop d n i depth) fun r => i < r ∧ r < 2 ^ 63 := by
  intro n
  induction n with
  | zero => intro i depth _ _ h; exact absurd rfl h
  | succ n ih =>
    intro i depth hi hn _
    rw [skipLoop]
    split
    · refine (varint_safe' d i hi).bind fun r hr => ?_
      obtain ⟨w, j⟩ := r
      simp only at hr ⊢
      refine (skipOne_safe d hd _ j depth (by omega) (by omega)).bind fun r hr2 => ?_
      obtain ⟨k, depth'⟩ := r
      simp only at hr2 ⊢
      split
      · trivial
      · split
        · simp only [Safe]; omega
        · by_cases hn0 : n = 0
          · subst hn0; omega
          · exact (ih k depth' (by omega) (by omega) hn0).mono fun r h => by omega
    · trivial

theorem skipRouter_safe (d : Bytes) (hd : d.length < 2 ^ 63) :
    Safe (skipRouter d) fun r => 0 < r ∧ r < 2 ^ 63 :=
  skipLoop_safe d hd _ 0 0 (by omega) (by omega) (by omega)

/-- What the `switch` of a decoder has to satisfy. -/
def FieldSafe {M : Type} (d : Bytes) (field : M → Int → Nat → Int → Option (Res (M × Int))) : Prop :=
  ∀ m num wt (i : Int), 0 ≤ i → i ≤ d.length →
    ∀ r, field m num wt i = some r → Safe r fun x => i ≤ x.2 ∧ x.2 ≤ d.length

theorem unmarshalLoop_safe {M : Type} (d : Bytes) (hd : d.length < 2 ^ 63)
    (field : M → Int → Nat → Int → Option (Res (M × Int))) (hf : FieldSafe d field) :
    ∀ (n : Nat) (i : Int) (m : M), 0 ≤ i → (d.length : Int) < n + i → n ≠ 0 →
      Safe (unmarshalLoop field d n i m) fun _ => True := by
  intro n
  induction n with
  | zero => intro i m _ _ h; exact absurd rfl h
  | succ n ih =>
    intro i m hi hn _
    rw [unmarshalLoop]
    split
    · rename_i hil
      refine (varint_safe' d i hi).bind fun r hr => ?_
      obtain ⟨w, j⟩ := r
      simp only at hr ⊢
      split
      · trivial
      · split
        · trivial
        · split
          · rename_i r' hr'
            refine (hf m _ _ j (by omega) hr.2.1 _ hr').bind fun x hx => ?_
            obtain ⟨m', k⟩ := x
            simp only at hx ⊢
            by_cases hn0 : n = 0
            · subst hn0; omega
            · exact ih k m' (by omega) (by omega) hn0
          · refine (slice_safe d i d.length hi (by omega) (by omega)).bind fun s hs => ?_
            refine (skipRouter_safe s (by omega)).bind fun k hk => ?_
            split
            · trivial
            · split
              · trivial
              · have := wrapInt_add i k hi (by omega) (by omega) hk.2
                by_cases hn0 : n = 0
                · subst hn0; omega
                · exact ih _ m (by omega) (by omega) hn0
    · split <;> trivial

theorem takeBytes_safe {M : Type} (d : Bytes) (hd : d.length < 2 ^ 63) (wt : Nat) (i : Int)
    (hi : 0 ≤ i) (set : Bytes → M) :
    Safe (takeBytes d wt i set) fun x => i ≤ x.2 ∧ x.2 ≤ d.length := by
  unfold takeBytes
  split
  · trivial
  · exact (bytesField_safe d i hd hi).bind fun r hr => by simp only [Safe]; omega

theorem takeNested_safe {N M : Type} (dec : N → Bytes → Res N) (d : Bytes) (hd : d.length < 2 ^ 63)
    (wt : Nat) (i : Int) (hi : 0 ≤ i) (old : N) (set : N → M)
    (hdec : ∀ m (s : Bytes), s.length < 2 ^ 63 → Safe (dec m s) fun _ => True) :
    Safe (takeNested dec d wt i old set) fun x => i ≤ x.2 ∧ x.2 ≤ d.length := by
  unfold takeNested
  split
  · trivial
  · refine (bytesField_safe d i hd hi).bind fun r hr => ?_
    obtain ⟨s, j⟩ := r
    simp only at hr ⊢
    exact (hdec old s (by omega)).bind fun x _ => by simp only [Safe]; omega

theorem headerField_safe (d : Bytes) (hd : d.length < 2 ^ 63) : FieldSafe d (headerField d) := by
  intro m num wt i hi hi2 r hr
  unfold headerField at hr
  have key : ∀ set : Bytes → Header,
      Safe (takeBytes d wt i set) fun x => i ≤ x.2 ∧ x.2 ≤ d.length :=
    takeBytes_safe d hd wt i hi
  have key2 : Safe (if wt ≠ 0 then (.err .wrongWire : Res (Header × Int))
      else (varint d i 0 0).bind fun (v, i) =>
        .ok ({ m with timestamp := (UInt64.ofNat v).toInt64 }, i))
      fun x => i ≤ x.2 ∧ x.2 ≤ d.length := by
    split
    · trivial
    · exact (varint_safe' d i hi).bind fun r hr => by simp only [Safe]; omega
  by_cases h : num = 1
  · rw [if_pos h] at hr; cases hr; exact key _
  rw [if_neg h] at hr; clear h
  by_cases h : num = 2
  · rw [if_pos h] at hr; cases hr; exact key _
  rw [if_neg h] at hr; clear h
  by_cases h : num = 3
  · rw [if_pos h] at hr; cases hr; exact key _
  rw [if_neg h] at hr; clear h
  by_cases h : num = 4
  · rw [if_pos h] at hr; cases hr; exact key _
  rw [if_neg h] at hr; clear h
  by_cases h : num = 7
  · rw [if_pos h] at hr; cases hr; exact key _
  rw [if_neg h] at hr; clear h
  by_cases h : num = 8
  · rw [if_pos h] at hr; cases hr; exact key _
  rw [if_neg h] at hr; clear h
  by_cases h : num = 9
  · rw [if_pos h] at hr; cases hr; exact key _
  rw [if_neg h] at hr; clear h
  by_cases h : num = 10
  · rw [if_pos h] at hr; cases hr; exact key _
  rw [if_neg h] at hr; clear h
  by_cases h : num = 11
  · rw [if_pos h] at hr; cases hr; exact key2
  rw [if_neg h] at hr; clear h
  by_cases h : num = 12
  · rw [if_pos h] at hr; cases hr; exact key _
  rw [if_neg h] at hr; clear h
  cases hr

theorem unmarshalHeader_safe (m : Header) (d : Bytes) (hd : d.length < 2 ^ 63) :
    Safe (unmarshalHeader m d) fun _ => True :=
  unmarshalLoop_safe d hd _ (headerField_safe d hd) _ 0 m (by omega) (by omega) (by omega)

theorem messageField_safe (d : Bytes) (hd : d.length < 2 ^ 63) : FieldSafe d (messageField d) := by
  intro m num wt i hi hi2 r hr
  unfold messageField at hr
  split at hr
  · cases hr; exact takeNested_safe _ d hd wt i hi _ _ unmarshalHeader_safe
  · split at hr
    · cases hr; exact takeBytes_safe d hd wt i hi _
    · cases hr

theorem unmarshalMessage_safe (m : Message) (d : Bytes) (hd : d.length < 2 ^ 63) :
    Safe (unmarshalMessage m d) fun _ => True :=
  unmarshalLoop_safe d hd _ (messageField_safe d hd) _ 0 m (by omega) (by omega) (by omega)

theorem routeReqField_safe (d : Bytes) (hd : d.length < 2 ^ 63) : FieldSafe d (routeReqField d) := by
  intro m num wt i hi hi2 r hr
  unfold routeReqField at hr
  split at hr
  · cases hr; exact takeNested_safe _ d hd wt i hi _ _ unmarshalMessage_safe
  · cases hr

theorem unmarshalRouteReq_safe (m : RouteReq) (d : Bytes) (hd : d.length < 2 ^ 63) :
    Safe (unmarshalRouteReq m d) fun _ => True :=
  unmarshalLoop_safe d hd _ (routeReqField_safe d hd) _ 0 m (by omega) (by omega) (by omega)

theorem routeResField_safe (d : Bytes) (hd : d.length < 2 ^ 63) : FieldSafe d (routeResField d) := by
  intro m num wt i hi hi2 r hr
  unfold routeResField at hr
  split at hr
  · cases hr; exact takeNested_safe _ d hd wt i hi _ _ unmarshalMessage_safe
  · cases hr

theorem unmarshalRouteRes_safe (m : RouteRes) (d : Bytes) (hd : d.length < 2 ^ 63) :
    Safe (unmarshalRouteRes m d) fun _ => True :=
  unmarshalLoop_safe d hd _ (routeResField_safe d hd) _ 0 m (by omega) (by omega) (by omega)

end Braid.Wire
