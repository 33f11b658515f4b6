import Verif.Wire.Mock

/-
Model of the methods `MarshalTo`, `XXX_Marshal`, `XXX_Size`, `XXX_Unmarshal` of the generated code: what a caller with a buffer of
its own gets. And the helper lemma that a writer panics in a buffer that is too small.
-/
namespace Braid.Wire
open Spec

/-- router/router.pb.go:410-413 and the like, `MarshalTo`, given `Size` and `MarshalToSizedBuffer`. `d` is the buffer up to its
capacity, against which `dAtA[:size]` is checked; the result is the buffer afterwards and the number of bytes. -/
def marshalInto (size : Nat) (f : Bytes → Res (Bytes × Int)) (d : Bytes) : Res (Bytes × Int) :=
  (slice d 0 size).bind fun sub => (f sub).bind fun r => .ok (r.1 ++ d.drop size, r.2)

/-- router/router.pb.go:51-62 and the like, `XXX_Marshal` with `deterministic` false: `b` is what the caller has in its slice and
`rest` what is behind it up to the capacity. (With `deterministic` true the method calls the library, which calls `Marshal`; this
is not modelled.) -/
def xxxMarshal (f : Bytes → Res (Bytes × Int)) (b rest : Bytes) : Res Bytes :=
  (f (b ++ rest)).bind fun r => slice r.1 0 r.2

/-- router/router.pb.go:51-62 `Header.XXX_Marshal`. -/
def xxxHeader (m : Header) : Bytes → Bytes → Res Bytes := xxxMarshal (marshalHeaderTo m)

/-- router/router.pb.go:159-170 `Message.XXX_Marshal`. -/
def xxxMessage (m : Message) : Bytes → Bytes → Res Bytes := xxxMarshal (marshalMessageTo m)

/-- router/router.pb.go:210-221 `RouteReq.XXX_Marshal`. -/
def xxxRouteReq (m : RouteReq) : Bytes → Bytes → Res Bytes := xxxMarshal (marshalRouteTo 0x0a m.msg)

/-- router/router.pb.go:254-265 `RouteRes.XXX_Marshal`. -/
def xxxRouteRes (m : RouteRes) : Bytes → Bytes → Res Bytes := xxxMarshal (marshalRouteTo 0x12 m.msg)

/-- lib/grpc/mock/mock.pb.go:43-54 and 88-99 `XXX_Marshal`. -/
def xxxMock (m : Mock) : Bytes → Bytes → Res Bytes := xxxMarshal (marshalMockTo m)

/-- router/router.pb.go:410-413 `Header.MarshalTo`. -/
def intoHeader (m : Header) : Bytes → Res (Bytes × Int) := marshalInto (sizeHeader m) (marshalHeaderTo m)

/-- router/router.pb.go:501-504 `Message.MarshalTo`. -/
def intoMessage (m : Message) : Bytes → Res (Bytes × Int) := marshalInto (sizeMessage m) (marshalMessageTo m)

/-- router/router.pb.go:543-546 `RouteReq.MarshalTo`. -/
def intoRouteReq (m : RouteReq) : Bytes → Res (Bytes × Int) := marshalInto (sizeRoute m.msg) (marshalRouteTo 0x0a m.msg)

/-- router/router.pb.go:578-581 `RouteRes.MarshalTo`. -/
def intoRouteRes (m : RouteRes) : Bytes → Res (Bytes × Int) := marshalInto (sizeRoute m.msg) (marshalRouteTo 0x12 m.msg)

/-! ### Helper lemmas -/

/-- A writer that needs as many bytes as the block `c` in front of the position, and panics without. -/
def Short (f : Bytes × Int → Res (Bytes × Int)) (c : Bytes) : Prop :=
  ∀ (d : Bytes) (i : Int), 0 ≤ i → i ≤ d.length → i < c.length → f (d, i) = .panic

theorem short_ok : Short (fun w => .ok w) [] := by
  intro d i h0 _ h; simp at h; omega

theorem split_buf {d : Bytes} {i : Int} {c : Bytes} (h1 : i ≤ d.length) (h2 : (c.length : Int) ≤ i) :
    ∃ a j t : Bytes, d = a ++ (j ++ t) ∧ j.length = c.length ∧ i = (a.length : Int) + j.length := by
  refine ⟨d.take (i.toNat - c.length), (d.drop (i.toNat - c.length)).take c.length,
    (d.drop (i.toNat - c.length)).drop c.length, ?_, ?_, ?_⟩
  · rw [List.take_append_drop, List.take_append_drop]
  · simp; omega
  · simp; omega

theorem short_bind {f g : Bytes × Int → Res (Bytes × Int)} {c e : Bytes} (hf : Wr f c) (sf : Short f c) (sg : Short g e) :
    Short (fun w => (f w).bind g) (e ++ c) := by
  intro d i h0 h1 h
  by_cases hc : i < c.length
  · dsimp only; rw [sf d i h0 h1 hc]; rfl
  · obtain ⟨a, j, t, rfl, hj, rfl⟩ := split_buf (c := c) h1 (by omega)
    dsimp only
    rw [hf a j t hj, Res.bind_ok]
    refine sg _ _ (by omega) (by simp; omega) ?_
    simp at h; omega

theorem setAt_neg (d : Bytes) {i : Int} (h : i < 0) (b : UInt8) : setAt d i b = .panic := by
  unfold setAt; rw [if_neg (by omega)]

theorem short_varint (v : Nat) : Short (fun w => encodeVarint w.1 w.2 v) (Spec.varint v) := by
  intro d i h0 h1 h
  rw [varint_length] at h
  dsimp only
  have : encodeVarintLoop d (i - sov v) v = .panic := by
    rw [encodeVarintLoop, setAt_neg d (by omega), setAt_neg d (by omega)]
    split <;> rfl
  unfold encodeVarint
  rw [this]; rfl

theorem short_tag (b : UInt8) : Short (fun w => putTag w.1 w.2 b) [b] := by
  intro d i h0 h1 h
  simp at h
  dsimp only
  unfold putTag
  rw [setAt_neg d (by omega)]; rfl

theorem short_copy (s : Bytes) :
    Short (fun w => (copyAt w.1 (w.2 - s.length) s).bind fun d => .ok (d, w.2 - s.length)) s := by
  intro d i h0 h1 h
  dsimp only
  unfold copyAt
  rw [if_neg (by omega)]; rfl

theorem short_putBytes (num : Nat) (tag : UInt8) (s : Bytes) (ht : Spec.varint (num * 8 + 2) = [tag]) :
    Short (putBytes tag s) (Spec.optLen num s) := by
  by_cases hs : s = []
  · subst hs
    have : putBytes tag [] = fun w => .ok w := by funext w; simp [putBytes]
    rw [this]; simpa [Spec.optLen] using short_ok
  · have hl : s.length > 0 := List.length_pos_iff.2 hs
    have := short_bind (wr_bind (wr_copy s) (wr_varint s.length))
      (short_bind (wr_copy s) (short_copy s) (short_varint s.length)) (short_tag tag)
    have e : putBytes tag s = fun w =>
        (((copyAt w.1 (w.2 - s.length) s).bind fun d => .ok (d, (w.2 - s.length : Int))).bind
          fun w => encodeVarint w.1 w.2 s.length).bind fun w => putTag w.1 w.2 tag := by
      funext w
      simp only [putBytes, hl, if_true]
      cases copyAt w.1 (w.2 - s.length) s <;> rfl
    rw [e]
    simpa [Spec.optLen, hs, Spec.lenField, ht] using this

theorem short_putInt64 (num : Nat) (tag : UInt8) (t : Int64) (ht : Spec.varint (num * 8) = [tag]) :
    Short (putInt64 tag t) (if t = 0 then [] else Spec.varintField num (Spec.twos t)) := by
  by_cases hs : t = 0
  · subst hs
    have : putInt64 tag 0 = fun w => .ok w := by funext w; simp [putInt64]
    rw [this]; simpa using short_ok
  · have := short_bind (wr_varint (u64 t)) (short_varint (u64 t)) (short_tag tag)
    have e : putInt64 tag t = fun w =>
        (encodeVarint w.1 w.2 (u64 t)).bind fun w => putTag w.1 w.2 tag := by
      funext w
      simp only [putInt64, ne_eq, hs, not_false_eq_true, if_true]
    rw [e]
    simpa [hs, Spec.varintField, ht, u64_eq] using this

/-- A whole-message marshaller that panics in a buffer that is too small. -/
def MShort (f : Bytes → Res (Bytes × Int)) (c : Bytes) : Prop := ∀ d : Bytes, d.length < c.length → f d = .panic

theorem mshort_of_short {f : Bytes × Int → Res (Bytes × Int)} {c : Bytes} (h : Short f c) :
    MShort (fun d => (f (d, d.length)).bind fun w => .ok (w.1, d.length - w.2)) c := by
  intro d hd
  have := h d d.length (by omega) (by omega) (by omega)
  simp only [this]; rfl

/-- Both at once. -/
structure Both (f : Bytes × Int → Res (Bytes × Int)) (c : Bytes) : Prop where
  wr : Wr f c
  short : Short f c

theorem Both.bind {f g : Bytes × Int → Res (Bytes × Int)} {c e : Bytes} (hf : Both f c) (hg : Both g e) :
    Both (fun w => (f w).bind g) (e ++ c) := ⟨wr_bind hf.wr hg.wr, short_bind hf.wr hf.short hg.short⟩

theorem both_bytes (num : Nat) (tag : UInt8) (s : Bytes) (ht : Spec.varint (num * 8 + 2) = [tag]) :
    Both (putBytes tag s) (Spec.optLen num s) := ⟨wr_putBytes num tag s ht, short_putBytes num tag s ht⟩

theorem both_int64 (num : Nat) (tag : UInt8) (t : Int64) (ht : Spec.varint (num * 8) = [tag]) :
    Both (putInt64 tag t) (if t = 0 then [] else Spec.varintField num (Spec.twos t)) :=
  ⟨wr_putInt64 num tag t ht, short_putInt64 num tag t ht⟩

theorem mshort_header (h : Header) : MShort (marshalHeaderTo h) (Spec.header h) := by
  have := mshort_of_short (Both.short
    ((both_bytes 12 0x62 h.custom sv98).bind
      (both_int64 11 0x58 h.timestamp sv88) |>.bind
      (both_bytes 10 0x52 h.token sv82) |>.bind
      (both_bytes 9 0x4a h.event sv74) |>.bind
      (both_bytes 8 0x42 h.targetActorType sv66) |>.bind
      (both_bytes 7 0x3a h.targetActorID sv58) |>.bind
      (both_bytes 4 0x22 h.prevActorType sv34) |>.bind
      (both_bytes 3 0x1a h.orgActorType sv26) |>.bind
      (both_bytes 2 0x12 h.orgActorID sv18) |>.bind
      (both_bytes 1 0x0a h.id sv10)))
  simp only [res_bind_assoc] at this
  simp only [Spec.header, List.append_assoc]
  exact this

theorem short_putNested {f : Bytes → Res (Bytes × Int)} {c : Bytes} (num : Nat) (tag : UInt8)
    (ht : Spec.varint (num * 8 + 2) = [tag]) (hf : MTo f c) (sf : MShort f c) :
    Short (putNested f tag) (Spec.lenField num c) := by
  intro d i h0 h1 h
  simp only [putNested]
  have hsl : slice d 0 i = .ok (d.take i.toNat) := by
    unfold slice
    rw [if_pos (by omega)]
    simp
  rw [hsl, Res.bind_ok]
  by_cases hc : i < c.length
  · rw [sf _ (by simp; omega)]; rfl
  · have e : d.take i.toNat = d.take (i.toNat - c.length) ++ (d.take i.toNat).drop (i.toNat - c.length) := by
      conv => lhs; rw [← List.take_append_drop (i.toNat - c.length) (d.take i.toNat)]
      rw [List.take_take, Nat.min_eq_left (by omega)]
    rw [e, hf _ _ (by simp; omega), Res.bind_ok]
    dsimp only
    have w := short_bind (wr_varint c.length) (short_varint c.length) (short_tag tag)
    rw [Int.toNat_natCast]
    refine w _ _ (by omega) (by simp; omega) ?_
    simp [Spec.lenField, ht] at h
    simp; omega

theorem both_nested {f : Bytes → Res (Bytes × Int)} {c : Bytes} (num : Nat) (tag : UInt8)
    (ht : Spec.varint (num * 8 + 2) = [tag]) (hf : MTo f c) (sf : MShort f c) :
    Both (putNested f tag) (Spec.lenField num c) := ⟨wr_putNested num tag ht hf, short_putNested num tag ht hf sf⟩

theorem mshort_message (m : Message) : MShort (marshalMessageTo m) (Spec.message m) := by
  match m with
  | ⟨none, b⟩ =>
    have := mshort_of_short ((both_bytes 2 0x12 b sv18).bind ⟨wr_ok, short_ok⟩).short
    simp only [res_bind_assoc] at this
    exact this
  | ⟨some h, b⟩ =>
    have := mshort_of_short ((both_bytes 2 0x12 b sv18).bind
      (both_nested 1 0x0a sv10 (mto_header h) (mshort_header h))).short
    simp only [res_bind_assoc] at this
    exact this

theorem mshort_route (num : Nat) (tag : UInt8) (ht : Spec.varint (num * 8 + 2) = [tag])
    (m : Option Message) : MShort (marshalRouteTo tag m)
      (match m with | some x => Spec.lenField num (Spec.message x) | none => []) := by
  match m with
  | none => exact mshort_of_short short_ok
  | some x => exact mshort_of_short (short_putNested num tag ht (mto_message x) (mshort_message x))

theorem mshort_mock (m : Mock) : MShort (marshalMockTo m) (Spec.mock m) :=
  mshort_of_short (short_putBytes 1 0x0a m.message sv10)

/-- What a caller with a buffer `b` in front of `rest` gets. -/
theorem xxx_eq {f : Bytes → Res (Bytes × Int)} {c : Bytes} (hf : MTo f c) (sf : MShort f c) (b rest : Bytes) :
    xxxMarshal f b rest = if c.length ≤ (b ++ rest).length
      then .ok (((b ++ rest).take ((b ++ rest).length - c.length) ++ c).take c.length) else .panic := by
  unfold xxxMarshal
  generalize b ++ rest = d
  split
  · rename_i h
    have e : d = d.take (d.length - c.length) ++ d.drop (d.length - c.length) := (List.take_append_drop _ _).symm
    have h1 : f d = .ok (d.take (d.length - c.length) ++ c, c.length) := by
      conv => lhs; rw [e]
      exact hf _ _ (by simp; omega)
    rw [h1, Res.bind_ok]
    unfold slice
    rw [if_pos (by simp; omega)]
    simp
  · rename_i h
    rw [sf d (by omega)]; rfl

theorem into_eq {f : Bytes → Res (Bytes × Int)} {c : Bytes} {n : Nat} (hf : MTo f c) (hn : n = c.length) (d : Bytes) :
    marshalInto n f d = if c.length ≤ d.length then .ok (c ++ d.drop c.length, c.length) else .panic := by
  subst hn
  unfold marshalInto
  by_cases h : c.length ≤ d.length
  · rw [if_pos h]
    have hs : slice d 0 (c.length : Int) = .ok (d.take c.length) := by
      unfold slice
      rw [if_pos (by omega)]
      simp
    rw [hs, Res.bind_ok]
    have := hf [] (d.take c.length) (by simp; omega)
    rw [List.nil_append] at this
    rw [this, Res.bind_ok]
    simp
  · rw [if_neg h]
    have hs : slice d 0 (c.length : Int) = .panic := by
      unfold slice
      rw [if_neg (by omega)]
    rw [hs]; rfl

end Braid.Wire
