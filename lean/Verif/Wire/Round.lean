import Verif.Wire.Dec

/-
Helper lemmas for C44: an encoded message is a sequence of well-formed fields.
-/
namespace Braid.Wire

theorem encs_append (xs ys : List Spec.Field) :
    Spec.encs (xs ++ ys) = Spec.encs xs ++ Spec.encs ys := by
  induction xs with
  | nil => simp [Spec.encs]
  | cons x xs ih => simp [Spec.encs, ih]

theorem oks_append (xs ys : List Spec.Field) : Spec.Oks (xs ++ ys) ↔ Spec.Oks xs ∧ Spec.Oks ys := by
  induction xs with
  | nil => simp [Spec.Oks]
  | cons x xs ih => simp [Spec.Oks, ih, and_assoc]

theorem oks_iff (xs : List Spec.Field) : Spec.Oks xs ↔ ∀ f ∈ xs, f.Ok := by
  induction xs with
  | nil => simp [Spec.Oks]
  | cons x xs ih => simp [Spec.Oks, ih]

theorem applyAll_append (h : Header) (xs ys : List Spec.Field) :
    Spec.applyAll h (xs ++ ys) = (Spec.applyAll h xs).bind fun h => Spec.applyAll h ys := by
  induction xs generalizing h with
  | nil => simp [Spec.applyAll]
  | cons x xs ih =>
    simp only [List.cons_append, Spec.applyAll]
    cases Spec.apply h x with
    | none => rfl
    | some h' => simp [ih]

/-- The field for a string, if it is not empty. -/
def optF (num : Nat) (s : Bytes) : List Spec.Field := if s = [] then [] else [.len num s]
/-- The field for the timestamp, if it is not zero. -/
def tsF (t : Int64) : List Spec.Field := if t = 0 then [] else [.varint 11 (Spec.twos t)]

theorem encs_optF (num : Nat) (s : Bytes) : Spec.encs (optF num s) = Spec.optLen num s := by
  by_cases h : s = [] <;> simp [optF, Spec.optLen, h, Spec.encs, Spec.Field.enc, Spec.lenField]

theorem encs_tsF (t : Int64) :
    Spec.encs (tsF t) = if t = 0 then [] else Spec.varintField 11 (Spec.twos t) := by
  by_cases h : t = 0 <;> simp [tsF, h, Spec.encs, Spec.Field.enc, Spec.varintField]

theorem twos_lt (t : Int64) : Spec.twos t < 2 ^ 64 := by
  have h := Int64.toInt_lt t
  have h2 := Int64.le_toInt t
  simp only [Spec.twos]
  split <;> omega

theorem ofInt_twos (t : Int64) : Int64.ofInt (Spec.twos t) = t := by
  rw [← u64_eq]
  have : u64 t = t.toBitVec.toNat := rfl
  rw [this, ← Int64.toBitVec_inj]
  simp

theorem ok_optF (num : Nat) (s : Bytes) (h0 : 0 < num) (h1 : num < 2 ^ 29) :
    Spec.Oks (optF num s) := by
  by_cases h : s = [] <;> simp [optF, h, Spec.Oks, Spec.Field.Ok, h0] <;> omega

theorem ok_tsF (t : Int64) : Spec.Oks (tsF t) := by
  have := twos_lt t
  by_cases h : t = 0 <;> simp [tsF, h, Spec.Oks, Spec.Field.Ok] <;> omega

theorem ap_1 (h : Header) (s : Bytes) (h0 : h.id = []) :
    Spec.applyAll h (optF 1 s) = some { h with id := s } := by
  by_cases hs : s = []
  · subst hs; simp only [optF, if_true, Spec.applyAll]; rw [← h0]
  · simp only [optF, hs, if_false, Spec.applyAll, Spec.apply, Option.bind_some]
theorem ap_2 (h : Header) (s : Bytes) (h0 : h.orgActorID = []) :
    Spec.applyAll h (optF 2 s) = some { h with orgActorID := s } := by
  by_cases hs : s = []
  · subst hs; simp only [optF, if_true, Spec.applyAll]; rw [← h0]
  · simp only [optF, hs, if_false, Spec.applyAll, Spec.apply, Option.bind_some]
theorem ap_3 (h : Header) (s : Bytes) (h0 : h.orgActorType = []) :
    Spec.applyAll h (optF 3 s) = some { h with orgActorType := s } := by
  by_cases hs : s = []
  · subst hs; simp only [optF, if_true, Spec.applyAll]; rw [← h0]
  · simp only [optF, hs, if_false, Spec.applyAll, Spec.apply, Option.bind_some]
theorem ap_4 (h : Header) (s : Bytes) (h0 : h.prevActorType = []) :
    Spec.applyAll h (optF 4 s) = some { h with prevActorType := s } := by
  by_cases hs : s = []
  · subst hs; simp only [optF, if_true, Spec.applyAll]; rw [← h0]
  · simp only [optF, hs, if_false, Spec.applyAll, Spec.apply, Option.bind_some]
theorem ap_7 (h : Header) (s : Bytes) (h0 : h.targetActorID = []) :
    Spec.applyAll h (optF 7 s) = some { h with targetActorID := s } := by
  by_cases hs : s = []
  · subst hs; simp only [optF, if_true, Spec.applyAll]; rw [← h0]
  · simp only [optF, hs, if_false, Spec.applyAll, Spec.apply, Option.bind_some]
theorem ap_8 (h : Header) (s : Bytes) (h0 : h.targetActorType = []) :
    Spec.applyAll h (optF 8 s) = some { h with targetActorType := s } := by
  by_cases hs : s = []
  · subst hs; simp only [optF, if_true, Spec.applyAll]; rw [← h0]
  · simp only [optF, hs, if_false, Spec.applyAll, Spec.apply, Option.bind_some]
theorem ap_9 (h : Header) (s : Bytes) (h0 : h.event = []) :
    Spec.applyAll h (optF 9 s) = some { h with event := s } := by
  by_cases hs : s = []
  · subst hs; simp only [optF, if_true, Spec.applyAll]; rw [← h0]
  · simp only [optF, hs, if_false, Spec.applyAll, Spec.apply, Option.bind_some]
theorem ap_10 (h : Header) (s : Bytes) (h0 : h.token = []) :
    Spec.applyAll h (optF 10 s) = some { h with token := s } := by
  by_cases hs : s = []
  · subst hs; simp only [optF, if_true, Spec.applyAll]; rw [← h0]
  · simp only [optF, hs, if_false, Spec.applyAll, Spec.apply, Option.bind_some]
theorem ap_12 (h : Header) (s : Bytes) (h0 : h.custom = []) :
    Spec.applyAll h (optF 12 s) = some { h with custom := s } := by
  by_cases hs : s = []
  · subst hs; simp only [optF, if_true, Spec.applyAll]; rw [← h0]
  · simp only [optF, hs, if_false, Spec.applyAll, Spec.apply, Option.bind_some]
theorem ap_11 (h : Header) (t : Int64) (h0 : h.timestamp = 0) :
    Spec.applyAll h (tsF t) = some { h with timestamp := t } := by
  by_cases hs : t = 0
  · subst hs; simp only [tsF, if_true, Spec.applyAll]; rw [← h0]
  · simp only [tsF, hs, if_false, Spec.applyAll, Spec.apply, Option.bind_some, ofInt_twos]

/-- The fields of an encoded header. -/
def fieldsOf (h : Header) : List Spec.Field :=
  optF 1 h.id ++ (optF 2 h.orgActorID ++ (optF 3 h.orgActorType ++ (optF 4 h.prevActorType ++
  (optF 7 h.targetActorID ++ (optF 8 h.targetActorType ++ (optF 9 h.event ++ (optF 10 h.token ++
  (tsF h.timestamp ++ optF 12 h.custom))))))))

theorem encs_fieldsOf (h : Header) : Spec.encs (fieldsOf h) = Spec.header h := by
  simp only [fieldsOf, encs_append, encs_optF, encs_tsF, Spec.header, List.append_assoc]

theorem oks_fieldsOf (h : Header) : Spec.Oks (fieldsOf h) := by
  simp only [fieldsOf, oks_append]
  refine ⟨?_, ?_, ?_, ?_, ?_, ?_, ?_, ?_, ?_, ?_⟩ <;>
    first | exact ok_tsF _ | exact ok_optF _ _ (by decide) (by decide)

theorem applyAll_fieldsOf (h : Header) : Spec.applyAll {} (fieldsOf h) = some h := by
  simp only [fieldsOf, applyAll_append]
  rw [ap_1 _ _ rfl, Option.bind_some]
  rw [ap_2 _ _ rfl, Option.bind_some]
  rw [ap_3 _ _ rfl, Option.bind_some]
  rw [ap_4 _ _ rfl, Option.bind_some]
  rw [ap_7 _ _ rfl, Option.bind_some]
  rw [ap_8 _ _ rfl, Option.bind_some]
  rw [ap_9 _ _ rfl, Option.bind_some]
  rw [ap_10 _ _ rfl, Option.bind_some]
  rw [ap_11 _ _ rfl, Option.bind_some]
  rw [ap_12 _ _ rfl]

theorem unmarshalHeader_header (h : Header) (hl : (Spec.header h).length < 2 ^ 63) :
    unmarshalHeader {} (Spec.header h) = .ok h := by
  rw [← encs_fieldsOf] at hl ⊢
  rw [unmarshalHeader_fields _ _ (oks_fieldsOf h) hl, applyAll_fieldsOf]

/-- The fields of an encoded message. -/
def msgFieldsOf (m : Message) : List Spec.MsgField :=
  (match m.header with
   | some h => [.header (fieldsOf h)]
   | none => []) ++ if m.body = [] then [] else [.body m.body]

theorem encMsg_msgFieldsOf (m : Message) : Spec.encMsg (msgFieldsOf m) = Spec.message m := by
  obtain ⟨h, b⟩ := m
  cases h <;> by_cases hb : b = [] <;>
    simp [msgFieldsOf, Spec.encMsg, Spec.message, hb, Spec.MsgField.field, Spec.Field.enc,
      Spec.optLen, Spec.lenField, encs_fieldsOf]

theorem applyMsgAll_msgFieldsOf (m : Message) : Spec.applyMsgAll {} (msgFieldsOf m) = some m := by
  obtain ⟨h, b⟩ := m
  cases h <;> by_cases hb : b = [] <;>
    simp [msgFieldsOf, hb, Spec.applyMsgAll, Spec.applyMsg, applyAll_fieldsOf]

theorem unmarshalMessage_message (m : Message) (hl : (Spec.message m).length < 2 ^ 63) :
    unmarshalMessage {} (Spec.message m) = .ok m := by
  rw [← encMsg_msgFieldsOf] at hl ⊢
  rw [unmarshalMessage_fields _ _ ?_ hl, applyMsgAll_msgFieldsOf]
  intro x hx
  simp only [msgFieldsOf, List.mem_append] at hx
  rcases hx with hx | hx
  · cases hh : m.header with
    | none => simp [hh] at hx
    | some h => simp [hh] at hx; subst hx; exact oks_fieldsOf h
  · split at hx
    · simp at hx
    · simp at hx; subst hx; trivial

theorem unmarshalRouteReq_routeReq (m : RouteReq) (hl : (Spec.routeReq m).length < 2 ^ 63) :
    unmarshalRouteReq {} (Spec.routeReq m) = .ok m := by
  obtain ⟨x⟩ := m
  cases x with
  | none => rfl
  | some x =>
    simp only [Spec.routeReq] at hl ⊢
    have hl' : (Spec.message x).length < 2 ^ 63 := by
      simp only [Spec.lenField, List.length_append] at hl; omega
    exact unmarshalLoop_one (routeReqField _) {} 1 _ x (fun x => ⟨some x⟩) (by decide) (by decide) hl
      (unmarshalMessage_message x hl') (fun i => rfl)

theorem unmarshalRouteRes_routeRes (m : RouteRes) (hl : (Spec.routeRes m).length < 2 ^ 63) :
    unmarshalRouteRes {} (Spec.routeRes m) = .ok m := by
  obtain ⟨x⟩ := m
  cases x with
  | none => rfl
  | some x =>
    simp only [Spec.routeRes] at hl ⊢
    have hl' : (Spec.message x).length < 2 ^ 63 := by
      simp only [Spec.lenField, List.length_append] at hl; omega
    exact unmarshalLoop_one (routeResField _) {} 2 _ x (fun x => ⟨some x⟩) (by decide) (by decide) hl
      (unmarshalMessage_message x hl') (fun i => rfl)

/-! ### Last value wins -/

theorem apply_holds (h h' : Header) (f : Spec.Field) (ha : Spec.apply h f = some h') :
    Spec.Holds h' f := by
  unfold Spec.apply at ha
  split at ha <;> first
    | (cases ha; rfl)
    | (unfold Spec.Holds; split <;> first | trivial | (simp_all [Spec.Field.num, Spec.headerNums]; done))

theorem apply_keeps (h h' : Header) (f g : Spec.Field) (ha : Spec.apply h g = some h')
    (hn : g.num ≠ f.num) (hf : Spec.Holds h f) : Spec.Holds h' f := by
  unfold Spec.apply at ha
  split at ha
  all_goals first
    | (cases ha
       unfold Spec.Holds at hf ⊢
       split <;> first | trivial | exact hf | exact absurd rfl hn)
    | skip
  split at ha
  · cases ha
  · cases ha; exact hf

theorem applyAll_keeps (h h' : Header) (f : Spec.Field) (gs : List Spec.Field)
    (ha : Spec.applyAll h gs = some h') (hn : ∀ g ∈ gs, g.num ≠ f.num) (hf : Spec.Holds h f) :
    Spec.Holds h' f := by
  induction gs generalizing h with
  | nil => simp only [Spec.applyAll, Option.some.injEq] at ha; exact ha ▸ hf
  | cons g gs ih =>
    simp only [Spec.applyAll] at ha
    cases hg : Spec.apply h g with
    | none => rw [hg] at ha; cases ha
    | some h1 =>
      rw [hg, Option.bind_some] at ha
      exact ih h1 ha (fun x hx => hn x (List.mem_cons_of_mem _ hx))
        (apply_keeps h h1 f g hg (hn g (List.mem_cons_self ..)) hf)

end Braid.Wire
