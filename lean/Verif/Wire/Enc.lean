import Verif.Wire.Spec

/-
Helper lemmas about the encoder: every writer puts a known block in front of what is already there.
-/
namespace Braid.Wire

@[simp] theorem Res.bind_ok {α β : Type} (a : α) (f : α → Res β) : (Res.ok a).bind f = f a := rfl
@[simp] theorem Res.bind_err {α β : Type} (e : Err) (f : α → Res β) :
    (Res.err e : Res α).bind f = .err e := rfl
@[simp] theorem Res.bind_panic {α β : Type} (f : α → Res β) :
    (Res.panic : Res α).bind f = .panic := rfl
@[simp] theorem Res.bind_fuel {α β : Type} (f : α → Res β) :
    (Res.fuel : Res α).bind f = .fuel := rfl

theorem log2_or_one (x : Nat) : Nat.log2 (x ||| 1) = Nat.log2 x := by
  have h2 : (x ||| 1) / 2 = x / 2 := by
    have := Nat.shiftRight_or_distrib (a := x) (b := 1) (i := 1)
    simpa [Nat.shiftRight_eq_div_pow] using this
  rw [Nat.log2_def, Nat.log2_def x, h2]
  by_cases h : x < 2
  · rw [if_neg (by omega), if_neg (by omega)]
  · rw [if_pos (by omega), if_pos (by omega)]

theorem or_one_ne_zero (x : Nat) : x ||| 1 ≠ 0 := by
  intro h
  have := (Nat.or_eq_zero_iff.mp h).2
  omega

theorem sov_eq (v : Nat) : sov v = (Nat.log2 v + 7) / 7 := by
  simp [sov, len64, log2_or_one, Nat.add_assoc]

theorem varint_length (v : Nat) : (Spec.varint v).length = sov v := by
  induction v using Nat.strongRecOn with
  | _ v ih =>
    rw [Spec.varint]
    by_cases h : v < 128
    · simp only [h, if_true, List.length_singleton, sov_eq]
      have : Nat.log2 v < 7 := by
        by_cases h0 : v = 0
        · subst h0; decide
        · exact (Nat.log2_lt h0).2 h
      omega
    · simp only [h, if_false, List.length_cons]
      rw [ih _ (by omega), sov_eq, sov_eq]
      have : Nat.log2 v = Nat.log2 (v / 128) + 7 := by
        have e : ∀ x, 2 ≤ x → Nat.log2 x = Nat.log2 (x / 2) + 1 := by
          intro x hx
          rw [Nat.log2_def]
          simp [hx]
        rw [e v (by omega), e (v/2) (by omega), e (v/2/2) (by omega), e (v/2/2/2) (by omega),
          e (v/2/2/2/2) (by omega), e (v/2/2/2/2/2) (by omega), e (v/2/2/2/2/2/2) (by omega)]
        simp only [Nat.div_div_eq_div_mul]
      omega

theorem varint_ne_nil (v : Nat) : Spec.varint v ≠ [] := by
  rw [Spec.varint]; split <;> simp

/-- A writer that puts the block `c` in front of the position. -/
def Wr (f : Bytes × Int → Res (Bytes × Int)) (c : Bytes) : Prop :=
  ∀ a j t : Bytes, j.length = c.length →
    f (a ++ (j ++ t), (a.length : Int) + j.length) = .ok (a ++ (c ++ t), a.length)

theorem wr_ok : Wr (fun w => .ok w) [] := by
  intro a j t h
  cases j with
  | nil => simp
  | cons => simp at h

theorem wr_bind {f g : Bytes × Int → Res (Bytes × Int)} {c e : Bytes} (hf : Wr f c) (hg : Wr g e) :
    Wr (fun w => (f w).bind g) (e ++ c) := by
  intro a j t h
  have hj : j = j.take e.length ++ j.drop e.length := (List.take_append_drop _ _).symm
  have h1 : (j.take e.length).length = e.length := by
    simp at h ⊢; omega
  have h2 : (j.drop e.length).length = c.length := by
    simp at h ⊢; omega
  have := hf (a ++ j.take e.length) (j.drop e.length) t h2
  have q : a ++ (j ++ t) = (a ++ j.take e.length) ++ (j.drop e.length ++ t) := by
    conv => lhs; rw [hj]
    simp only [List.append_assoc]
  have q2 : (a.length : Int) + j.length
      = ((a ++ j.take e.length).length : Int) + (j.drop e.length).length := by
    simp at h ⊢; omega
  simp only
  rw [q, q2, this]
  simp only [Res.bind_ok]
  have := hg a (j.take e.length) (c ++ t) h1
  simp only [List.length_append, Int.natCast_add, List.append_assoc] at this ⊢
  exact this

theorem setAt_mid (a t : Bytes) (x b : UInt8) :
    setAt (a ++ x :: t) (a.length : Int) b = .ok (a ++ b :: t) := by
  have : (a.length : Int) < (a ++ x :: t).length := by simp; omega
  simp only [setAt, this, Int.natCast_nonneg, and_self, if_true, Int.toNat_natCast]
  simp

theorem ofNat_or (v : Nat) : v &&& 0x7f ||| 0x80 = v % 128 + 128 := by
  have h1 : v &&& 0x7f = v % 128 := Nat.and_two_pow_sub_one_eq_mod v 7
  have h2 : v % 128 < 2 ^ 7 := Nat.mod_lt _ (by decide)
  have h3 := Nat.shiftLeft_add_eq_or_of_lt h2 1
  rw [h1, Nat.or_comm]
  simp at h3
  omega

theorem encodeVarintLoop_eq (v : Nat) : ∀ a j t : Bytes, j.length = (Spec.varint v).length →
    encodeVarintLoop (a ++ (j ++ t)) a.length v = .ok (a ++ (Spec.varint v ++ t)) := by
  induction v using Nat.strongRecOn with
  | _ v ih =>
    intro a j t h
    rw [encodeVarintLoop]
    rw [Spec.varint] at h ⊢
    by_cases hv : v < 128
    · have : ¬ v ≥ 1 <<< 7 := by simp; omega
      simp only [hv, if_true, this, if_false] at h ⊢
      match j, h with
      | [x], _ => simp [setAt_mid]
    · have : v ≥ 1 <<< 7 := by simp; omega
      simp only [hv, if_false, this, if_true] at h ⊢
      match j, h with
      | x :: j, h =>
        rw [List.cons_append, setAt_mid, Res.bind_ok, ofNat_or]
        have := ih (v / 128) (by omega) (a ++ [UInt8.ofNat (v % 128 + 128)]) j t (by simpa using h)
        simpa [Nat.shiftRight_eq_div_pow] using this

theorem wr_varint (v : Nat) : Wr (fun w => encodeVarint w.1 w.2 v) (Spec.varint v) := by
  intro a j t h
  simp only [encodeVarint]
  have e : (a.length : Int) + j.length - sov v = a.length := by rw [h, varint_length]; omega
  rw [e, encodeVarintLoop_eq v a j t h]; simp

theorem wr_tag (b : UInt8) : Wr (fun w => putTag w.1 w.2 b) [b] := by
  intro a j t h
  match j, h with
  | [x], _ =>
    simp only [putTag, List.length_singleton, List.cons_append, List.nil_append]
    have e : (a.length : Int) + (1 : Nat) - 1 = a.length := by omega
    rw [e, setAt_mid]; simp

theorem wr_copy (s : Bytes) :
    Wr (fun w => (copyAt w.1 (w.2 - s.length) s).bind fun d => .ok (d, w.2 - s.length)) s := by
  intro a j t h
  have e : (a.length : Int) + j.length - s.length = a.length := by omega
  simp only [copyAt]
  rw [e]
  have : (a.length : Int) ≤ (a ++ (j ++ t)).length := by simp; omega
  simp only [Int.natCast_nonneg, this, and_self, if_true, Int.toNat_natCast, Res.bind_ok]
  have h2 : (a ++ (j ++ t)).length - a.length = j.length + t.length := by simp
  rw [h2, List.take_left', List.take_of_length_le (by omega), List.drop_append, ← h,
    List.drop_append]
  · simp
  · rfl

theorem wr_putBytes (num : Nat) (tag : UInt8) (s : Bytes) (ht : Spec.varint (num * 8 + 2) = [tag]) :
    Wr (putBytes tag s) (Spec.optLen num s) := by
  by_cases hs : s = []
  · subst hs
    have : putBytes tag [] = fun w => .ok w := by funext w; simp [putBytes]
    rw [this]; simpa [Spec.optLen] using wr_ok
  · have hl : s.length > 0 := List.length_pos_iff.2 hs
    have := wr_bind (wr_bind (wr_copy s) (wr_varint s.length)) (wr_tag tag)
    have e : putBytes tag s = fun w =>
        (((copyAt w.1 (w.2 - s.length) s).bind fun d => .ok (d, (w.2 - s.length : Int))).bind
          fun w => encodeVarint w.1 w.2 s.length).bind fun w => putTag w.1 w.2 tag := by
      funext w
      simp only [putBytes, hl, if_true]
      cases copyAt w.1 (w.2 - s.length) s <;> rfl
    rw [e]
    simpa [Spec.optLen, hs, Spec.lenField, ht] using this

theorem u64_eq (t : Int64) : u64 t = Spec.twos t := by
  have h := Int64.toInt_lt t
  have h2 := Int64.le_toInt t
  have e : t.toInt = t.toBitVec.toInt := rfl
  have e2 : u64 t = t.toBitVec.toNat := rfl
  rw [BitVec.toInt_eq_toNat_cond] at e
  have := t.toBitVec.isLt
  simp only [Spec.twos, e2]
  split at e <;> split <;> omega

theorem wr_putInt64 (num : Nat) (tag : UInt8) (t : Int64) (ht : Spec.varint (num * 8) = [tag]) :
    Wr (putInt64 tag t) (if t = 0 then [] else Spec.varintField num (Spec.twos t)) := by
  by_cases hs : t = 0
  · subst hs
    have : putInt64 tag 0 = fun w => .ok w := by funext w; simp [putInt64]
    rw [this]; simpa using wr_ok
  · have := wr_bind (wr_varint (u64 t)) (wr_tag tag)
    have e : putInt64 tag t = fun w =>
        (encodeVarint w.1 w.2 (u64 t)).bind fun w => putTag w.1 w.2 tag := by
      funext w
      simp only [putInt64, ne_eq, hs, not_false_eq_true, if_true]
    rw [e]
    simpa [hs, Spec.varintField, ht, u64_eq] using this

/-- A whole-message marshaller: it fills the end of the buffer and returns the number of bytes. -/
def MTo (f : Bytes → Res (Bytes × Int)) (c : Bytes) : Prop :=
  ∀ a j : Bytes, j.length = c.length → f (a ++ j) = .ok (a ++ c, c.length)

theorem mto_of_wr {f : Bytes × Int → Res (Bytes × Int)} {c : Bytes} (h : Wr f c) :
    MTo (fun d => (f (d, d.length)).bind fun w => .ok (w.1, d.length - w.2)) c := by
  intro a j hj
  have := h a j [] hj
  simp only [List.append_nil] at this
  have e : ((a ++ j).length : Int) = a.length + j.length := by simp
  simp only [e]
  rw [this]
  simp only [Res.bind_ok]
  congr 2
  omega

theorem sv10 : Spec.varint (1 * 8 + 2) = [0x0a] := by simp [Spec.varint]
theorem sv18 : Spec.varint (2 * 8 + 2) = [0x12] := by simp [Spec.varint]
theorem sv26 : Spec.varint (3 * 8 + 2) = [0x1a] := by simp [Spec.varint]
theorem sv34 : Spec.varint (4 * 8 + 2) = [0x22] := by simp [Spec.varint]
theorem sv58 : Spec.varint (7 * 8 + 2) = [0x3a] := by simp [Spec.varint]
theorem sv66 : Spec.varint (8 * 8 + 2) = [0x42] := by simp [Spec.varint]
theorem sv74 : Spec.varint (9 * 8 + 2) = [0x4a] := by simp [Spec.varint]
theorem sv82 : Spec.varint (10 * 8 + 2) = [0x52] := by simp [Spec.varint]
theorem sv88 : Spec.varint (11 * 8) = [0x58] := by simp [Spec.varint]
theorem sv98 : Spec.varint (12 * 8 + 2) = [0x62] := by simp [Spec.varint]

theorem res_bind_assoc {α β γ : Type} (x : Res α) (f : α → Res β) (g : β → Res γ) :
    (x.bind f).bind g = x.bind fun a => (f a).bind g := by
  cases x <;> rfl

theorem mto_header (h : Header) : MTo (marshalHeaderTo h) (Spec.header h) := by
  have := mto_of_wr
    (wr_bind (wr_bind (wr_bind (wr_bind (wr_bind (wr_bind (wr_bind (wr_bind (wr_bind
      (wr_putBytes 12 0x62 h.custom sv98)
      (wr_putInt64 11 0x58 h.timestamp sv88))
      (wr_putBytes 10 0x52 h.token sv82))
      (wr_putBytes 9 0x4a h.event sv74))
      (wr_putBytes 8 0x42 h.targetActorType sv66))
      (wr_putBytes 7 0x3a h.targetActorID sv58))
      (wr_putBytes 4 0x22 h.prevActorType sv34))
      (wr_putBytes 3 0x1a h.orgActorType sv26))
      (wr_putBytes 2 0x12 h.orgActorID sv18))
      (wr_putBytes 1 0x0a h.id sv10))
  simp only [res_bind_assoc] at this
  simp only [Spec.header, List.append_assoc]
  exact this

theorem wr_putNested {f : Bytes → Res (Bytes × Int)} {c : Bytes} (num : Nat) (tag : UInt8)
    (ht : Spec.varint (num * 8 + 2) = [tag]) (hf : MTo f c) :
    Wr (putNested f tag) (Spec.lenField num c) := by
  intro a j t h
  simp only [putNested]
  have hsl : slice (a ++ (j ++ t)) 0 ((a.length : Int) + j.length) = .ok (a ++ j) := by
    have : ((a.length : Int) + j.length) ≤ (a ++ (j ++ t)).length := by simp; omega
    have h2 : ((a.length : Int) + j.length).toNat = (a ++ j).length := by simp; omega
    simp only [slice, this, Int.le_refl, true_and, and_true, h2]
    rw [if_pos (by omega), ← List.append_assoc, List.take_left']
    · simp
    · rfl
  rw [hsl, Res.bind_ok]
  -- split off the part for the nested message
  have hlen : (Spec.lenField num c).length = 1 + sov c.length + c.length := by
    simp [Spec.lenField, ht, varint_length]; omega
  rw [hlen] at h
  let p := j.take (1 + sov c.length)
  let q := j.drop (1 + sov c.length)
  have hpq : j = p ++ q := (List.take_append_drop _ _).symm
  have hp : p.length = 1 + sov c.length := by simp [p]; omega
  have hq : q.length = c.length := by simp [q]; omega
  have := hf (a ++ p) q hq
  rw [hpq, ← List.append_assoc, this, Res.bind_ok]
  have hd : (a ++ p ++ q ++ t).drop ((a.length : Int) + (p ++ q).length).toNat = t := by
    have : ((a.length : Int) + (p ++ q).length).toNat = (a ++ p ++ q).length := by simp; omega
    rw [this, List.drop_left']
    rfl
  have hd' : (a ++ (p ++ q ++ t)).drop ((a.length : Int) + (p ++ q).length).toNat = t := by
    simpa using hd
  simp only [hd', Int.toNat_natCast]
  have w := wr_bind (wr_varint c.length) (wr_tag tag) a p (c ++ t) (by
    simp [varint_length, hp]; omega)
  have e : (a.length : Int) + (p ++ q).length - (c.length : Nat) = a.length + p.length := by
    simp; omega
  rw [e, List.append_assoc, List.append_assoc]
  simp only at w
  rw [w]
  simp [Spec.lenField, ht]

theorem mto_message (m : Message) : MTo (marshalMessageTo m) (Spec.message m) := by
  match m with
  | ⟨none, b⟩ =>
    have := mto_of_wr (wr_bind (wr_putBytes 2 0x12 b sv18) wr_ok)
    simp only [res_bind_assoc] at this
    exact this
  | ⟨some h, b⟩ =>
    have := mto_of_wr (wr_bind (wr_putBytes 2 0x12 b sv18) (wr_putNested 1 0x0a sv10 (mto_header h)))
    simp only [res_bind_assoc] at this
    exact this

theorem mto_route (num : Nat) (tag : UInt8) (ht : Spec.varint (num * 8 + 2) = [tag])
    (m : Option Message) : MTo (marshalRouteTo tag m)
      (match m with | some x => Spec.lenField num (Spec.message x) | none => []) := by
  match m with
  | none =>
    exact mto_of_wr wr_ok
  | some x => exact mto_of_wr (wr_putNested num tag ht (mto_message x))

theorem sizeBytes_eq (num : Nat) (tag : UInt8) (s : Bytes) (ht : Spec.varint (num * 8 + 2) = [tag]) :
    sizeBytes s = (Spec.optLen num s).length := by
  by_cases hs : s = []
  · subst hs; simp [sizeBytes, Spec.optLen]
  · have hl : s.length > 0 := List.length_pos_iff.2 hs
    simp only [sizeBytes, hl, if_true, Spec.optLen, hs, if_false, Spec.lenField, ht, varint_length,
      List.length_append, List.length_singleton]
    omega

theorem sizeHeader_eq (h : Header) : sizeHeader h = (Spec.header h).length := by
  simp only [sizeHeader, Spec.header, List.length_append]
  rw [sizeBytes_eq 1 _ h.id sv10, sizeBytes_eq 2 _ h.orgActorID sv18,
    sizeBytes_eq 3 _ h.orgActorType sv26, sizeBytes_eq 4 _ h.prevActorType sv34,
    sizeBytes_eq 7 _ h.targetActorID sv58, sizeBytes_eq 8 _ h.targetActorType sv66,
    sizeBytes_eq 9 _ h.event sv74, sizeBytes_eq 10 _ h.token sv82, sizeBytes_eq 12 _ h.custom sv98]
  congr 2
  by_cases ht : h.timestamp = 0
  · simp [ht]
  · simp only [ne_eq, ht, not_false_eq_true, if_true, if_false, Spec.varintField, sv88,
      List.length_append, List.length_singleton, varint_length, u64_eq]

theorem sizeMessage_eq (m : Message) : sizeMessage m = (Spec.message m).length := by
  match m with
  | ⟨none, b⟩ => simp [sizeMessage, Spec.message, sizeBytes_eq 2 _ b sv18]
  | ⟨some h, b⟩ =>
    simp [sizeMessage, Spec.message, sizeBytes_eq 2 _ b sv18, Spec.lenField, sv10, varint_length,
      sizeHeader_eq]
    omega

theorem sizeRoute_eq (num : Nat) (tag : UInt8) (ht : Spec.varint (num * 8 + 2) = [tag])
    (m : Option Message) : sizeRoute m
      = (match m with | some x => Spec.lenField num (Spec.message x) | none => ([] : Bytes)).length := by
  match m with
  | none => simp [sizeRoute]
  | some x =>
    simp [sizeRoute, Spec.lenField, ht, varint_length, sizeMessage_eq]
    omega

theorem marshalWith_eq {f : Bytes → Res (Bytes × Int)} {c : Bytes} {n : Nat} (h : MTo f c)
    (hn : n = c.length) : marshalWith n f = .ok c := by
  have := h [] (List.replicate n 0) (by simp [hn])
  simp only [List.nil_append] at this
  simp [marshalWith, this, slice]

theorem marshalHeader_eq (h : Header) : marshalHeader h = .ok (Spec.header h) :=
  marshalWith_eq (mto_header h) (sizeHeader_eq h)

theorem marshalMessage_eq (m : Message) : marshalMessage m = .ok (Spec.message m) :=
  marshalWith_eq (mto_message m) (sizeMessage_eq m)

theorem marshalRouteReq_eq (m : RouteReq) : marshalRouteReq m = .ok (Spec.routeReq m) :=
  marshalWith_eq (mto_route 1 _ sv10 m.msg) (sizeRoute_eq 1 _ sv10 m.msg)

theorem marshalRouteRes_eq (m : RouteRes) : marshalRouteRes m = .ok (Spec.routeRes m) :=
  marshalWith_eq (mto_route 2 _ sv18 m.msg) (sizeRoute_eq 2 _ sv18 m.msg)

end Braid.Wire
