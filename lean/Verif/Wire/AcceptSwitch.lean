import Verif.Wire.AcceptLoop

/-
The switches of the four decoders do what the grammar says of a field.
-/
namespace Braid.Wire
open Spec

/-- A case of a switch: the bytes with their length. -/
theorem take_case {M : Type} (R : M → Field → M → Prop) (set : Bytes → M) (a r : Bytes) (m : M) (num w : Nat)
    (hd : (a ++ r).length < 2 ^ 63)
    (hR : ∀ (f : Field) (m' : M), f.num = num → (R m f m' ↔ ∃ s, f = .len num s ∧ m' = set s)) (m' : M) (j : Int) :
    takeBytes (a ++ r) w a.length set = .ok (m', j) ↔
      ∃ (f : Field) (y r' : Bytes), r = y ++ r' ∧ Pay f y ∧ f.num = num ∧ wt f = w ∧ R m f m' ∧ j = (a.length : Int) + y.length := by
  unfold takeBytes
  split
  · rename_i hw
    simp only [reduceCtorEq, false_iff]
    rintro ⟨f, y, r', -, -, hn, hwf, hr, -⟩
    obtain ⟨s, rfl, -⟩ := (hR f m' hn).1 hr
    exact hw hwf.symm
  · rename_i hw
    have hw : w = 2 := by omega
    subst hw
    rw [bind_ok]
    constructor
    · rintro ⟨⟨s, i⟩, hs, h⟩
      dsimp only at h
      injection h with h
      injection h with h1 h2
      obtain ⟨p, r', rfl, hp, rfl⟩ := (bytesField_iff a r s i hd).1 hs
      exact ⟨.len num s, p ++ s, r', by simp, ⟨p, rfl, hp⟩, rfl, rfl, (hR _ _ rfl).2 ⟨s, rfl, h1.symm⟩, by rw [← h2]; simp; omega⟩
    · rintro ⟨f, y, r', rfl, hp, hn, -, hr, rfl⟩
      obtain ⟨s, rfl, rfl⟩ := (hR f m' hn).1 hr
      obtain ⟨p, rfl, hp⟩ := hp
      exact ⟨(s, (a.length : Int) + p.length + s.length), (bytesField_iff a _ s _ hd).2 ⟨p, r', by simp, hp, rfl⟩, by simp; omega⟩

/-- A case of a switch: a nested message. -/
theorem nested_case {N M : Type} (R : M → Field → M → Prop) (dec : N → Bytes → Res N) (P : Bytes → N → Prop) (old : N)
    (set : N → M) (a r : Bytes) (m : M) (num w : Nat) (hd : (a ++ r).length < 2 ^ 63)
    (hdec : ∀ s x, s.length < 2 ^ 63 → (dec old s = .ok x ↔ P s x))
    (hR : ∀ (f : Field) (m' : M), f.num = num → (R m f m' ↔ ∃ s x, f = .len num s ∧ P s x ∧ m' = set x)) (m' : M) (j : Int) :
    takeNested dec (a ++ r) w a.length old set = .ok (m', j) ↔
      ∃ (f : Field) (y r' : Bytes), r = y ++ r' ∧ Pay f y ∧ f.num = num ∧ wt f = w ∧ R m f m' ∧ j = (a.length : Int) + y.length := by
  unfold takeNested
  split
  · rename_i hw
    simp only [reduceCtorEq, false_iff]
    rintro ⟨f, y, r', -, -, hn, hwf, hr, -⟩
    obtain ⟨s, x, rfl, -⟩ := (hR f m' hn).1 hr
    exact hw hwf.symm
  · rename_i hw
    have hw : w = 2 := by omega
    subst hw
    rw [bind_ok]
    constructor
    · rintro ⟨⟨s, i⟩, hs, h⟩
      dsimp only at h
      rw [bind_ok] at h
      obtain ⟨x, hx, h⟩ := h
      injection h with h
      injection h with h1 h2
      obtain ⟨p, r', rfl, hp, rfl⟩ := (bytesField_iff a r s i hd).1 hs
      have hx := (hdec s x (by simp at hd; omega)).1 hx
      exact ⟨.len num s, p ++ s, r', by simp, ⟨p, rfl, hp⟩, rfl, rfl, (hR _ _ rfl).2 ⟨s, x, rfl, hx, h1.symm⟩,
        by rw [← h2]; simp; omega⟩
    · rintro ⟨f, y, r', rfl, hp, hn, -, hr, rfl⟩
      obtain ⟨s, x, rfl, hx, rfl⟩ := (hR f m' hn).1 hr
      obtain ⟨p, rfl, hp⟩ := hp
      refine ⟨(s, (a.length : Int) + p.length + s.length), (bytesField_iff a _ s _ hd).2 ⟨p, r', by simp, hp, rfl⟩, ?_⟩
      dsimp only
      rw [(hdec s x (by simp at hd; omega)).2 hx, Res.bind_ok]
      simp; omega

/-- `apply` as a relation. -/
def Applies (m : Header) (f : Field) (m' : Header) : Prop := apply m f = some m'

/-- What the grammar says of a known field of bytes of a header. -/
macro "apply_len" : tactic => `(tactic| (
  intro f m' hf
  cases f <;> simp only [Field.num] at hf <;> subst hf <;> simp [Applies, apply, headerNums, Field.num]; try (constructor <;> (intro h; exact h.symm))))

theorem apply_other (m : Header) (f : Field) (m' : Header) (h : f.num ∉ headerNums) : apply m f = some m' ↔ m' = m := by
  rw [apply_unknown m f h]
  constructor
  · intro h; injection h with h; exact h.symm
  · rintro rfl; rfl

/-- The switch of the header. -/
theorem header_switch (d : Bytes) (hd : d.length < 2 ^ 63) : SwitchOk d (headerField d) Applies := by
  intro a r m num w h h0 h1
  subst h
  by_cases hn : num ∈ headerNums
  · simp only [headerNums, List.mem_cons, List.not_mem_nil, or_false] at hn
    rcases hn with rfl | rfl | rfl | rfl | rfl | rfl | rfl | rfl | rfl | rfl
    · rw [hf_1]; refine take_case Applies _ a r m 1 w hd ?_; apply_len
    · rw [hf_2]; refine take_case Applies _ a r m 2 w hd ?_; apply_len
    · rw [hf_3]; refine take_case Applies _ a r m 3 w hd ?_; apply_len
    · rw [hf_4]; refine take_case Applies _ a r m 4 w hd ?_; apply_len
    · rw [hf_7]; refine take_case Applies _ a r m 7 w hd ?_; apply_len
    · rw [hf_8]; refine take_case Applies _ a r m 8 w hd ?_; apply_len
    · rw [hf_9]; refine take_case Applies _ a r m 9 w hd ?_; apply_len
    · rw [hf_10]; refine take_case Applies _ a r m 10 w hd ?_; apply_len
    · rw [hf_11]
      intro m' j
      have hR : ∀ (f : Field), f.num = 11 → (Applies m f m' ↔ ∃ v, f = .varint 11 v ∧ m' = { m with timestamp := Int64.ofInt v }) := by
        intro f hf
        cases f <;> simp only [Field.num] at hf <;> subst hf <;> simp [Applies, apply, headerNums, Field.num]
        try (constructor <;> (intro h; exact h.symm))
      split
      · rename_i hw
        simp only [reduceCtorEq, false_iff]
        rintro ⟨f, y, r', -, -, hn, hwf, hr, -⟩
        obtain ⟨s, rfl, -⟩ := (hR f hn).1 hr
        exact hw hwf.symm
      · rename_i hw
        have hw : w = 0 := by omega
        subst hw
        rw [bind_ok]
        constructor
        · rintro ⟨⟨v, i⟩, hv, h⟩
          dsimp only at h
          injection h with h
          injection h with h1 h2
          obtain ⟨p, r', rfl, hp, rfl⟩ := (varint_iff a r v i).1 hv
          refine ⟨.varint 11 v, p, r', rfl, hp, rfl, rfl, (hR _ rfl).2 ⟨v, rfl, ?_⟩, h2.symm⟩
          rw [← h1, int64_of]
        · rintro ⟨f, y, r', rfl, hp, hn, -, hr, rfl⟩
          obtain ⟨v, rfl, rfl⟩ := (hR f hn).1 hr
          refine ⟨(v, (a.length : Int) + y.length), (varint_iff a _ v _).2 ⟨y, r', rfl, hp, rfl⟩, ?_⟩
          dsimp only
          rw [int64_of]
    · rw [hf_12]; refine take_case Applies _ a r m 12 w hd ?_; apply_len
  · rw [hf_other _ _ _ _ _ hn]
    dsimp only
    intro f m' hf
    subst hf
    exact apply_other m f m' hn

theorem all_apply (m : Header) (fs : List Field) (m' : Header) :
    All Applies m fs m' ↔ applyAll m fs = some m' := by
  induction fs generalizing m with
  | nil =>
    simp only [All, applyAll]
    constructor
    · rintro rfl; rfl
    · intro h; injection h with h; exact h.symm
  | cons f fs ih =>
    simp only [All, Applies, applyAll, Option.bind_eq_some_iff, ih]

theorem header_iff (m : Header) (d : Bytes) (m' : Header) (hd : d.length < 2 ^ 63) :
    unmarshalHeader m d = .ok m' ↔ HeaderOf m d m' := by
  unfold unmarshalHeader HeaderOf
  simp only [← all_apply]
  constructor
  · intro h; exact loop_only d hd _ _ (header_switch d hd) m' _ [] d m rfl h
  · rintro ⟨fs, h1, h2, h3⟩
    exact loop_all d hd _ _ (header_switch d hd) m' fs _ [] d m rfl (by omega) h1 h2 h3

theorem mf_o (d : Bytes) (m : Message) (n w : Nat) (i : Int) (h1 : n ≠ 1) (h2 : n ≠ 2) : messageField d m n w i = none := by
  unfold messageField; rw [if_neg (by omega), if_neg (by omega)]

/-- The switch of the message. -/
theorem message_switch (d : Bytes) (hd : d.length < 2 ^ 63) : SwitchOk d (messageField d) MessageStep := by
  intro a r m num w h h0 h1
  subst h
  by_cases h1 : num = 1
  · subst h1
    rw [mf_1]
    refine nested_case MessageStep _ (fun s h => HeaderOf (m.header.getD {}) s h) _ _ a r m 1 w hd (fun s x hs => header_iff _ s x hs) ?_
    intro f m' hf
    cases f <;> simp only [Field.num] at hf <;> subst hf <;> simp [MessageStep, Field.num]
  by_cases h2 : num = 2
  · subst h2
    rw [mf_2]
    refine take_case MessageStep _ a r m 2 w hd ?_
    intro f m' hf
    cases f <;> simp only [Field.num] at hf <;> subst hf <;> simp [MessageStep, Field.num]
  · rw [mf_o _ _ _ _ _ h1 h2]
    dsimp only
    intro f m' hf
    subst hf
    cases f <;> simp only [Field.num] at h1 h2 <;> unfold MessageStep <;> simp_all [Field.num]

theorem message_iff (m : Message) (d : Bytes) (m' : Message) (hd : d.length < 2 ^ 63) :
    unmarshalMessage m d = .ok m' ↔ MessageOf m d m' := by
  unfold unmarshalMessage MessageOf
  constructor
  · intro h; exact loop_only d hd _ _ (message_switch d hd) m' _ [] d m rfl h
  · rintro ⟨fs, h1, h2, h3⟩
    exact loop_all d hd _ _ (message_switch d hd) m' fs _ [] d m rfl (by omega) h1 h2 h3

theorem rq_1 (d : Bytes) (m : RouteReq) (w : Nat) (i : Int) : routeReqField d m ((1 : Nat) : Int) w i =
    some (takeNested unmarshalMessage d w i (m.msg.getD {}) fun x => { m with msg := some x }) := rfl
theorem rs_2 (d : Bytes) (m : RouteRes) (w : Nat) (i : Int) : routeResField d m ((2 : Nat) : Int) w i =
    some (takeNested unmarshalMessage d w i (m.msg.getD {}) fun x => { m with msg := some x }) := rfl

theorem req_switch (d : Bytes) (hd : d.length < 2 ^ 63) :
    SwitchOk d (routeReqField d) (fun m f m' => RouteStep 1 m.msg f m'.msg) := by
  intro a r m num w h h0 h1
  subst h
  by_cases h1 : num = 1
  · subst h1
    rw [rq_1]
    refine nested_case (fun m f m' => RouteStep 1 m.msg f m'.msg) _ (fun s h => MessageOf (m.msg.getD {}) s h) _ _ a r m 1 w hd (fun s x hs => message_iff _ s x hs) ?_
    intro f m' hf
    obtain ⟨x'⟩ := m'
    cases f <;> simp only [Field.num] at hf <;> subst hf <;> simp [RouteStep, Field.num]
  · have : routeReqField (a ++ r) m num w a.length = none := by unfold routeReqField; rw [if_neg (by omega)]
    rw [this]
    dsimp only
    intro f m' hf
    subst hf
    obtain ⟨x'⟩ := m'
    obtain ⟨x⟩ := m
    cases f <;> simp only [Field.num] at h1 <;> unfold RouteStep <;> simp_all [Field.num]

theorem res_switch (d : Bytes) (hd : d.length < 2 ^ 63) :
    SwitchOk d (routeResField d) (fun m f m' => RouteStep 2 m.msg f m'.msg) := by
  intro a r m num w h h0 h1
  subst h
  by_cases h1 : num = 2
  · subst h1
    rw [rs_2]
    refine nested_case (fun m f m' => RouteStep 2 m.msg f m'.msg) _ (fun s h => MessageOf (m.msg.getD {}) s h) _ _ a r m 2 w hd (fun s x hs => message_iff _ s x hs) ?_
    intro f m' hf
    obtain ⟨x'⟩ := m'
    cases f <;> simp only [Field.num] at hf <;> subst hf <;> simp [RouteStep, Field.num]
  · have : routeResField (a ++ r) m num w a.length = none := by unfold routeResField; rw [if_neg (by omega)]
    rw [this]
    dsimp only
    intro f m' hf
    subst hf
    obtain ⟨x'⟩ := m'
    obtain ⟨x⟩ := m
    cases f <;> simp only [Field.num] at h1 <;> unfold RouteStep <;> simp_all [Field.num]

/-- A sequence of steps, seen through a bijection. -/
theorem all_map {M N : Type} (g : M → N) (k : N → M) (hg : ∀ m, k (g m) = m) (hk : ∀ n, g (k n) = n)
    (S : N → Field → N → Prop) (m : M) (fs : List Field) (m' : M) :
    All (fun m f m' => S (g m) f (g m')) m fs m' ↔ All S (g m) fs (g m') := by
  induction fs generalizing m with
  | nil =>
    simp only [All]
    constructor
    · rintro rfl; rfl
    · intro h; rw [← hg m', h, hg]
  | cons f fs ih =>
    simp only [All, ih]
    constructor
    · rintro ⟨x, h⟩; exact ⟨g x, h⟩
    · rintro ⟨x, h⟩; exact ⟨k x, by rw [hk]; exact h⟩

theorem req_iff (m : RouteReq) (d : Bytes) (m' : RouteReq) (hd : d.length < 2 ^ 63) :
    unmarshalRouteReq m d = .ok m' ↔ RouteOf 1 m.msg d m'.msg := by
  unfold unmarshalRouteReq RouteOf
  have hm := fun fs => all_map (M := RouteReq) (fun m => m.msg) (fun x => ⟨x⟩) (fun _ => rfl) (fun _ => rfl) (RouteStep 1) m fs m'
  constructor
  · intro h
    obtain ⟨fs, h1, h2, h3⟩ := loop_only d hd _ _ (req_switch d hd) m' _ [] d m rfl h
    exact ⟨fs, h1, h2, (hm fs).1 h3⟩
  · rintro ⟨fs, h1, h2, h3⟩
    exact loop_all d hd _ _ (req_switch d hd) m' fs _ [] d m rfl (by omega) h1 h2 ((hm fs).2 h3)

theorem res_iff (m : RouteRes) (d : Bytes) (m' : RouteRes) (hd : d.length < 2 ^ 63) :
    unmarshalRouteRes m d = .ok m' ↔ RouteOf 2 m.msg d m'.msg := by
  unfold unmarshalRouteRes RouteOf
  have hm := fun fs => all_map (M := RouteRes) (fun m => m.msg) (fun x => ⟨x⟩) (fun _ => rfl) (fun _ => rfl) (RouteStep 2) m fs m'
  constructor
  · intro h
    obtain ⟨fs, h1, h2, h3⟩ := loop_only d hd _ _ (res_switch d hd) m' _ [] d m rfl h
    exact ⟨fs, h1, h2, (hm fs).1 h3⟩
  · rintro ⟨fs, h1, h2, h3⟩
    exact loop_all d hd _ _ (res_switch d hd) m' fs _ [] d m rfl (by omega) h1 h2 ((hm fs).2 h3)

end Braid.Wire
