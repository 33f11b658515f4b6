import Verif.Wire.AcceptSwitch
import Verif.Wire.Props

/-
Model of `lib/grpc/mock/mock.pb.go`: encoding and decoding of the two messages of the mock service, each with one string. The code
was generated by the same generator as `router/router.pb.go`, and `encodeVarintMock`, `sovMock`, `skipMock` are the same text as
`encodeVarintRouter`, `sovRouter`, `skipRouter`; the model shares `encodeVarint`, `sov`, `skipRouter` and the loop with it.
-/
namespace Braid.Wire

/-- lib/grpc/mock/mock.pb.go:30-32 `type MockRequest struct` and 75-77 `type MockResponse struct`: one string. -/
structure Mock where
  message : Bytes := []
deriving DecidableEq, Repr

/-- lib/grpc/mock/mock.pb.go:292-303 and 305-316 `Size` (sovMock: 318-320). -/
def sizeMock (m : Mock) : Nat := sizeBytes m.message

/-- lib/grpc/mock/mock.pb.go:236-249 and 266-279 `MarshalToSizedBuffer` (encodeVarintMock: 281-291). -/
def marshalMockTo (m : Mock) (d : Bytes) : Res (Bytes × Int) :=
  (putBytes 0x0a m.message (d, d.length)).bind fun w => .ok (w.1, d.length - w.2)

/-- lib/grpc/mock/mock.pb.go:221-229 and 251-259 `Marshal`. -/
def marshalMock (m : Mock) : Res Bytes := marshalWith (sizeMock m) (marshalMockTo m)

/-- lib/grpc/mock/mock.pb.go:231-234 and 261-264 `MarshalTo`: the first `Size` bytes of the buffer are written. `d` is the buffer up
to its capacity, which is what `dAtA[:size]` is checked against. -/
def marshalMockInto (m : Mock) (d : Bytes) : Res (Bytes × Int) :=
  (slice d 0 (sizeMock m)).bind fun sub =>
  (marshalMockTo m sub).bind fun r => .ok (r.1 ++ d.drop (sizeMock m), r.2)

/-- lib/grpc/mock/mock.pb.go:352-398 and 434-480: the switch of `Unmarshal`. -/
def mockField (d : Bytes) (m : Mock) (num : Int) (wt : Nat) (i : Int) : Option (Res (Mock × Int)) :=
  if num = 1 then some (takeBytes d wt i fun s => { m with message := s })
  else none

/-- lib/grpc/mock/mock.pb.go:324-405 and 406-487 `Unmarshal` into `m` (skipMock: 488-565). -/
def unmarshalMock (m : Mock) (d : Bytes) : Res Mock :=
  unmarshalLoop (mockField d) d (d.length + 1) 0 m

/-! ### What the bytes mean -/

namespace Spec

/-- The encoding: the string is field 1, and is left out when it is empty. -/
def mock (m : Mock) : Bytes := optLen 1 m.message

/-- The strings of the fields with number 1. -/
def strings (fs : List Field) : List Bytes :=
  fs.filterMap fun
    | .len 1 s => some s
    | _ => none

/-- The bytes are fields; those with number 1 are strings, of which the last one is the message. -/
def MockOf (m : Mock) (d : Bytes) (m' : Mock) : Prop :=
  ∃ fs, Readss fs d ∧ Top fs ∧ (∀ f ∈ fs, f.num = 1 → ∃ s, f = .len 1 s) ∧ m'.message = ((strings fs).getLast?).getD m.message

end Spec
open Spec

/-! ### Helper lemmas -/

/-- What one field does. -/
def MockStep (m : Mock) (f : Field) (m' : Mock) : Prop := (∃ s, f = .len 1 s ∧ m' = ⟨s⟩) ∨ (f.num ≠ 1 ∧ m' = m)

theorem mock_switch (d : Bytes) (hd : d.length < 2 ^ 63) : SwitchOk d (mockField d) MockStep := by
  intro a r m num w h h0 h1
  subst h
  by_cases h1 : num = 1
  · subst h1
    have : mockField (a ++ r) m ((1 : Nat) : Int) w a.length = some (takeBytes (a ++ r) w a.length fun s => ⟨s⟩) := rfl
    rw [this]
    refine take_case MockStep _ a r m 1 w hd ?_
    intro f m' hf
    simp [MockStep, hf]
  · have : mockField (a ++ r) m (num : Int) w a.length = none := by unfold mockField; rw [if_neg (by omega)]
    rw [this]
    dsimp only
    intro f m' hf
    subst hf
    constructor
    · rintro (⟨s, rfl, -⟩ | ⟨-, h⟩)
      · exact absurd rfl h1
      · exact h
    · intro h; exact .inr ⟨h1, h⟩

theorem all_mock (fs : List Field) : ∀ m m' : Mock, All MockStep m fs m' ↔
    (∀ f ∈ fs, f.num = 1 → ∃ s, f = .len 1 s) ∧ m'.message = ((strings fs).getLast?).getD m.message := by
  induction fs with
  | nil =>
    intro m m'
    obtain ⟨a⟩ := m; obtain ⟨b⟩ := m'
    simp [All, strings]
  | cons f fs ih =>
    intro m m'
    simp only [All, ih, List.mem_cons, forall_eq_or_imp]
    constructor
    · rintro ⟨x, (⟨s, rfl, rfl⟩ | ⟨hn, rfl⟩), h1, h2⟩
      · refine ⟨⟨fun _ => ⟨s, rfl⟩, h1⟩, ?_⟩
        rw [h2]
        have : strings (.len 1 s :: fs) = s :: strings fs := rfl
        rw [this]
        cases hs : strings fs with
        | nil => simp
        | cons y ys => simp [List.getLast?_cons]
      · refine ⟨⟨fun h => absurd h hn, h1⟩, ?_⟩
        rw [h2]
        have : strings (f :: fs) = strings fs := by
          simp only [strings, List.filterMap_cons]
          split
          · rfl
          · rename_i h
            split at h
            · exact absurd rfl hn
            · cases h
        rw [this]
    · rintro ⟨⟨h0, h1⟩, h2⟩
      by_cases hn : f.num = 1
      · obtain ⟨s, rfl⟩ := h0 hn
        refine ⟨⟨s⟩, .inl ⟨s, rfl, rfl⟩, h1, ?_⟩
        rw [h2]
        have : strings (.len 1 s :: fs) = s :: strings fs := rfl
        rw [this]
        cases hs : strings fs with
        | nil => simp
        | cons y ys => simp [List.getLast?_cons]
      · refine ⟨m, .inr ⟨hn, rfl⟩, h1, ?_⟩
        rw [h2]
        have : strings (f :: fs) = strings fs := by
          simp only [strings, List.filterMap_cons]
          split
          · rfl
          · rename_i h
            split at h
            · exact absurd rfl hn
            · cases h
        rw [this]

theorem mock_iff (m : Mock) (d : Bytes) (m' : Mock) (hd : d.length < 2 ^ 63) :
    unmarshalMock m d = .ok m' ↔ MockOf m d m' := by
  unfold unmarshalMock MockOf
  simp only [← all_mock]
  constructor
  · intro h; exact loop_only d hd _ _ (mock_switch d hd) m' _ [] d m rfl h
  · rintro ⟨fs, h1, h2, h3⟩
    exact loop_all d hd _ _ (mock_switch d hd) m' fs _ [] d m rfl (by omega) h1 h2 h3

theorem mto_mock (m : Mock) : MTo (marshalMockTo m) (Spec.mock m) := mto_of_wr (wr_putBytes 1 0x0a m.message sv10)

theorem sizeMock_eq (m : Mock) : sizeMock m = (Spec.mock m).length := sizeBytes_eq 1 _ m.message sv10

theorem marshalMock_eq (m : Mock) : marshalMock m = .ok (Spec.mock m) := marshalWith_eq (mto_mock m) (sizeMock_eq m)

theorem mock_safe (d : Bytes) (hd : d.length < 2 ^ 63) : FieldSafe d (mockField d) := by
  intro m num wt i hi hi2 r hr
  unfold mockField at hr
  split at hr
  · cases hr; exact takeBytes_safe d hd wt i hi _
  · cases hr

theorem unmarshal_mock (m : Mock) (hl : (Spec.mock m).length < 2 ^ 63) : unmarshalMock {} (Spec.mock m) = .ok m := by
  obtain ⟨s⟩ := m
  by_cases hs : s = []
  · subst hs; rfl
  · have e : Spec.mock ⟨s⟩ = [] ++ ((Field.len 1 s).enc ++ []) := by
      simp [Spec.mock, optLen, hs, lenField, Field.enc]
    rw [e] at hl ⊢
    unfold unmarshalMock
    obtain ⟨n, hn⟩ : ∃ n, ([] ++ ((Field.len 1 s).enc ++ ([] : Bytes))).length = n + 1 :=
      ⟨_, (Nat.succ_pred_eq_of_pos (List.length_pos_iff.2 (by simpa using enc_ne_nil _))).symm⟩
    have r := unmarshalLoop_field (mockField ([] ++ ((Field.len 1 s).enc ++ []))) [] [] (.len 1 s)
      (([] ++ ((Field.len 1 s).enc ++ ([] : Bytes))).length) {} ⟨by decide, by decide⟩ hl
    rw [show ((([] : Bytes).length : Nat) : Int) = 0 from rfl] at r
    rw [r]
    have t := takeBytes_read [] s [] 1 (fun s => (⟨s⟩ : Mock)) hl
    rw [show ((([] : Bytes).length : Nat) : Int) = 0 from rfl] at t
    have f : mockField ([] ++ ((Field.len 1 s).enc ++ [])) {} ((Field.len 1 s).num : Int) (wt (.len 1 s))
        (0 + ((Spec.varint ((Field.len 1 s).num * 8 + wt (.len 1 s))).length : Int)) = some (takeBytes ([] ++ ((Field.len 1 s).enc ++ [])) 2
          (0 + ((Spec.varint (1 * 8 + 2)).length : Int)) (fun s => (⟨s⟩ : Mock))) := rfl
    rw [f, t]
    dsimp only
    rw [Res.bind_ok]
    rw [hn]
    dsimp only
    have en := unmarshalLoop_end (mockField ([] ++ ((Field.len 1 s).enc ++ []))) ([] ++ ((Field.len 1 s).enc ++ [])) n (⟨s⟩ : Mock)
    simpa using en

end Braid.Wire
