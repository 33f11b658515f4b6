import Verif.Wire.Xxx

/-
Property C132: encoding into a buffer of the caller.
-/
namespace Braid.Wire
open Spec

/-- **C132** (`MarshalTo`). The encoding is written at the beginning of a buffer that is large enough, the rest stays as it is and
the number of bytes is returned; with a smaller buffer it panics. -/
theorem C132_marshal_to (h : Header) (m : Message) (r : RouteReq) (s : RouteRes) (d : Bytes) :
    (intoHeader h d = if (Spec.header h).length ≤ d.length
      then .ok (Spec.header h ++ d.drop (Spec.header h).length, (Spec.header h).length) else .panic) ∧
    (intoMessage m d = if (Spec.message m).length ≤ d.length
      then .ok (Spec.message m ++ d.drop (Spec.message m).length, (Spec.message m).length) else .panic) ∧
    (intoRouteReq r d = if (Spec.routeReq r).length ≤ d.length
      then .ok (Spec.routeReq r ++ d.drop (Spec.routeReq r).length, (Spec.routeReq r).length) else .panic) ∧
    (intoRouteRes s d = if (Spec.routeRes s).length ≤ d.length
      then .ok (Spec.routeRes s ++ d.drop (Spec.routeRes s).length, (Spec.routeRes s).length) else .panic) :=
  ⟨into_eq (mto_header h) (sizeHeader_eq h) d, into_eq (mto_message m) (sizeMessage_eq m) d,
    into_eq (mto_route 1 _ sv10 r.msg) (sizeRoute_eq 1 _ sv10 r.msg) d,
    into_eq (mto_route 2 _ sv18 s.msg) (sizeRoute_eq 2 _ sv18 s.msg) d⟩

/-- **C132** (`MarshalToSizedBuffer`). The encoding is written at the end of a buffer that is large enough, and nothing in front of
it is touched; with a smaller buffer it panics and never writes outside. -/
theorem C132_sized (h : Header) (m : Message) (r : RouteReq) (s : RouteRes) (k : Mock) (a j : Bytes) :
    (j.length = (Spec.header h).length → marshalHeaderTo h (a ++ j) = .ok (a ++ Spec.header h, (Spec.header h).length)) ∧
    (j.length = (Spec.message m).length → marshalMessageTo m (a ++ j) = .ok (a ++ Spec.message m, (Spec.message m).length)) ∧
    (j.length = (Spec.routeReq r).length →
      marshalRouteTo 0x0a r.msg (a ++ j) = .ok (a ++ Spec.routeReq r, (Spec.routeReq r).length)) ∧
    (j.length = (Spec.routeRes s).length →
      marshalRouteTo 0x12 s.msg (a ++ j) = .ok (a ++ Spec.routeRes s, (Spec.routeRes s).length)) ∧
    (j.length < (Spec.header h).length → marshalHeaderTo h j = .panic) ∧
    (j.length < (Spec.message m).length → marshalMessageTo m j = .panic) ∧
    (j.length < (Spec.routeReq r).length → marshalRouteTo 0x0a r.msg j = .panic) ∧
    (j.length < (Spec.routeRes s).length → marshalRouteTo 0x12 s.msg j = .panic) ∧
    (j.length < (Spec.mock k).length → marshalMockTo k j = .panic) :=
  ⟨mto_header h a j, mto_message m a j, mto_route 1 _ sv10 r.msg a j, mto_route 2 _ sv18 s.msg a j, mshort_header h j,
    mshort_message m j, mshort_route 1 _ sv10 r.msg j, mshort_route 2 _ sv18 s.msg j, mshort_mock k j⟩

/-- What the library expects of `XXX_Marshal`: the encoding `c`, appended to what is in the slice. -/
def Appends (x : Bytes → Bytes → Res Bytes) (c b rest : Bytes) : Prop := x b rest = .ok (b ++ c)

theorem appends_exact {f : Bytes → Res (Bytes × Int)} {c : Bytes} (hf : MTo f c) (sf : MShort f c) (rest : Bytes)
    (h : rest.length = c.length) : Appends (xxxMarshal f) c [] rest := by
  unfold Appends
  rw [xxx_eq hf sf, List.nil_append, if_pos (by omega)]
  simp [h]

/-- **C132**, in part (`XXX_Marshal`). An empty slice whose capacity is exactly `Size` gets the encoding, whatever the memory held
before; a smaller one panics. -/
theorem C132_append_partial (h : Header) (m : Message) (r : RouteReq) (s : RouteRes) (k : Mock) (rest : Bytes) :
    (rest.length = sizeHeader h → Appends (xxxHeader h) (Spec.header h) [] rest) ∧
    (rest.length = sizeMessage m → Appends (xxxMessage m) (Spec.message m) [] rest) ∧
    (rest.length = sizeRoute r.msg → Appends (xxxRouteReq r) (Spec.routeReq r) [] rest) ∧
    (rest.length = sizeRoute s.msg → Appends (xxxRouteRes s) (Spec.routeRes s) [] rest) ∧
    (rest.length = sizeMock k → Appends (xxxMock k) (Spec.mock k) [] rest) ∧
    ∀ b : Bytes, ((b ++ rest).length < sizeMessage m → xxxMessage m b rest = .panic) ∧
      ((b ++ rest).length < sizeRoute r.msg → xxxRouteReq r b rest = .panic) ∧
      ((b ++ rest).length < sizeRoute s.msg → xxxRouteRes s b rest = .panic) := by
  have e1 := sizeHeader_eq h
  have e2 := sizeMessage_eq m
  have e3 := sizeRoute_eq 1 _ sv10 r.msg
  have e4 := sizeRoute_eq 2 _ sv18 s.msg
  have e5 := sizeMock_eq k
  refine ⟨fun q => appends_exact (mto_header h) (mshort_header h) rest (q.trans e1),
    fun q => appends_exact (mto_message m) (mshort_message m) rest (q.trans e2),
    fun q => appends_exact (mto_route 1 _ sv10 r.msg) (mshort_route 1 _ sv10 r.msg) rest (q.trans e3),
    fun q => appends_exact (mto_route 2 _ sv18 s.msg) (mshort_route 2 _ sv18 s.msg) rest (q.trans e4),
    fun q => appends_exact (mto_mock k) (mshort_mock k) rest (q.trans e5), fun b => ⟨fun q => ?_, fun q => ?_, fun q => ?_⟩⟩
  · exact (xxx_eq (mto_message m) (mshort_message m) b rest).trans (if_neg (by omega))
  · exact (xxx_eq (mto_route 1 _ sv10 r.msg) (mshort_route 1 _ sv10 r.msg) b rest).trans (if_neg (by omega))
  · exact (xxx_eq (mto_route 2 _ sv18 s.msg) (mshort_route 2 _ sv18 s.msg) b rest).trans (if_neg (by omega))

/-- **C132** (a slice that is not empty). What is in the slice is never kept. -/
theorem C132_prefix (m : Message) (r : RouteReq) (s : RouteRes) (b rest : Bytes) (hb : b ≠ []) :
    ¬ Appends (xxxMessage m) (Spec.message m) b rest ∧ ¬ Appends (xxxRouteReq r) (Spec.routeReq r) b rest ∧
      ¬ Appends (xxxRouteRes s) (Spec.routeRes s) b rest := by
  have key : ∀ {f : Bytes → Res (Bytes × Int)} {c : Bytes}, MTo f c → MShort f c → ¬ Appends (xxxMarshal f) c b rest := by
    intro f c hf sf h
    unfold Appends at h
    rw [xxx_eq hf sf] at h
    split at h
    · injection h with h
      have h1 := congrArg List.length h
      have h2 := List.length_pos_iff.2 hb
      rw [List.length_take, List.length_append (as := b) (bs := c)] at h1
      omega
    · cases h
  exact ⟨key (mto_message m) (mshort_message m), key (mto_route 1 _ sv10 r.msg) (mshort_route 1 _ sv10 r.msg),
    key (mto_route 2 _ sv18 s.msg) (mshort_route 2 _ sv18 s.msg)⟩

/-- No message begins with a zero byte. -/
theorem loop_zero {M : Type} (field : M → Int → Nat → Int → Option (Res (M × Int))) (t : Bytes) (m : M) :
    unmarshalLoop field (0 :: t) ((0 :: t).length + 1) 0 m = .err .illegalTag := by
  have : varint (0 :: t) 0 0 0 = .ok (0, 1) := by
    rw [varint]
    simp [idx]
  rw [unmarshalLoop, if_pos (by simp), this, Res.bind_ok]
  simp [toInt32]

theorem fresh_ne {f : Bytes → Res (Bytes × Int)} {c : Bytes} (hf : MTo f c) (sf : MShort f c) (hc : c ≠ []) {k : Nat}
    (hk : c.length < k) : ∃ t, xxxMarshal f [] (List.replicate k 0) = .ok (0 :: t) := by
  rw [xxx_eq hf sf, List.nil_append, if_pos (by simp; omega)]
  have hl := List.length_pos_iff.2 hc
  obtain ⟨n, hn⟩ : ∃ n, k - c.length = n + 1 := ⟨k - c.length - 1, by omega⟩
  obtain ⟨l, h⟩ : ∃ l, c.length = l + 1 := ⟨c.length - 1, by omega⟩
  rw [List.length_replicate, List.take_replicate, Nat.min_eq_left (by omega), hn, h, List.replicate_succ, List.cons_append,
    List.take_succ_cons]
  exact ⟨_, rfl⟩

/-- **C132** refuted (`XXX_Marshal`). Every message that is not empty is lost when the slice has room for more than the message,
say by one byte: a fresh slice gets as many bytes as the message has, beginning with a zero, which no decoder accepts. -/
theorem C132_capacity_refuted (m : Message) (r : RouteReq) (s : RouteRes) (k : Nat) :
    (Spec.message m ≠ [] → sizeMessage m < k →
      ∃ d, xxxMessage m [] (List.replicate k 0) = .ok d ∧ ∀ x, unmarshalMessage x d = .err .illegalTag) ∧
    (Spec.routeReq r ≠ [] → sizeRoute r.msg < k →
      ∃ d, xxxRouteReq r [] (List.replicate k 0) = .ok d ∧ ∀ x, unmarshalRouteReq x d = .err .illegalTag) ∧
    (Spec.routeRes s ≠ [] → sizeRoute s.msg < k →
      ∃ d, xxxRouteRes s [] (List.replicate k 0) = .ok d ∧ ∀ x, unmarshalRouteRes x d = .err .illegalTag) := by
  have e2 := sizeMessage_eq m
  have e3 := sizeRoute_eq 1 _ sv10 r.msg
  have e4 := sizeRoute_eq 2 _ sv18 s.msg
  refine ⟨fun hc hk => ?_, fun hc hk => ?_, fun hc hk => ?_⟩
  · obtain ⟨t, ht⟩ := fresh_ne (mto_message m) (mshort_message m) hc (k := k) (by omega)
    exact ⟨_, ht, fun x => loop_zero _ t x⟩
  · obtain ⟨t, ht⟩ := fresh_ne (mto_route 1 _ sv10 r.msg) (mshort_route 1 _ sv10 r.msg) hc (k := k) (by omega)
    exact ⟨_, ht, fun x => loop_zero _ t x⟩
  · obtain ⟨t, ht⟩ := fresh_ne (mto_route 2 _ sv18 s.msg) (mshort_route 2 _ sv18 s.msg) hc (k := k) (by omega)
    exact ⟨_, ht, fun x => loop_zero _ t x⟩

/-- **C132** (exactly). A fresh slice gets the encoding of a message that is not empty exactly if its capacity is `Size`. -/
theorem C132_fresh (r : RouteReq) (k : Nat) (hl : (Spec.routeReq r).length < 2 ^ 63) (hr : Spec.routeReq r ≠ []) :
    Appends (xxxRouteReq r) (Spec.routeReq r) [] (List.replicate k 0) ↔ k = sizeRoute r.msg := by
  constructor
  · intro h
    rcases Nat.lt_trichotomy k (sizeRoute r.msg) with hk | hk | hk
    · have := ((C132_append_partial {} {} r {} {} (List.replicate k 0)).2.2.2.2.2 []).2.1 (by simpa using hk)
      unfold Appends at h
      rw [this] at h
      cases h
    · exact hk
    · obtain ⟨d, h1, h2⟩ := (C132_capacity_refuted {} r {} k).2.1 hr hk
      unfold Appends at h
      rw [h1, List.nil_append] at h
      injection h with h
      obtain ⟨b, hb, hu⟩ := C44_req_roundtrip r hl
      rw [marshalRouteReq_eq] at hb
      cases hb
      have := h2 {}
      rw [h, hu] at this
      cases this
  · intro h
    exact (C132_append_partial {} {} r {} {} (List.replicate k 0)).2.2.1 (by simpa using h)

/-- A request with a body of one byte: five bytes of capacity are right, six lose it, four panic. -/
example : Spec.routeReq ⟨some ⟨none, [7]⟩⟩ = [0x0a, 3, 0x12, 1, 7] ∧
    (sizeRoute (some ⟨none, [7]⟩)) = 5 ∧
    Appends (xxxRouteReq ⟨some ⟨none, [7]⟩⟩) [0x0a, 3, 0x12, 1, 7] [] [9, 9, 9, 9, 9] ∧
    xxxRouteReq ⟨some ⟨none, [7]⟩⟩ [] [0, 0, 0, 0, 0, 0] = .ok [0, 0x0a, 3, 0x12, 1] ∧
    xxxRouteReq ⟨some ⟨none, [7]⟩⟩ [1] [0, 0, 0] = .panic := by
  have e : Spec.routeReq ⟨some ⟨none, [7]⟩⟩ = [0x0a, 3, 0x12, 1, 7] := by
    simp [Spec.routeReq, Spec.message, Spec.optLen, Spec.lenField, Spec.varint]
  have l : sizeRoute (some ⟨none, [7]⟩) = 5 := by
    have := sizeRoute_eq 1 _ sv10 (some ⟨none, [7]⟩)
    rw [this]
    exact congrArg List.length e
  have x := xxx_eq (mto_route 1 _ sv10 (some ⟨none, [7]⟩)) (mshort_route 1 _ sv10 (some ⟨none, [7]⟩))
  have e' : Spec.lenField 1 (Spec.message ⟨none, [7]⟩) = [0x0a, 3, 0x12, 1, 7] := e
  simp only [e'] at x
  refine ⟨e, l, (x [] [9, 9, 9, 9, 9]).trans ?_, (x [] [0, 0, 0, 0, 0, 0]).trans ?_, (x [1] [0, 0, 0]).trans ?_⟩ <;> rfl

end Braid.Wire
