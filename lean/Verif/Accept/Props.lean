import Verif.Accept.Model
import Verif.Wire.PropsXxx

/-
C136: any bytes sent to a node are answered.
-/
namespace Braid.Accept

open Wire Payload

/-! ### The stack -/

theorem stackLoop_spec (trace : Bytes) (len : Nat) (h : 0 < len) :
    (stackLoop trace len h).1 = trace ∧ trace.length < (stackLoop trace len h).2 ∧
      ((stackLoop trace len h).2 = len ∨ (stackLoop trace len h).2 ≤ 2 * trace.length) := by
  fun_induction stackLoop trace len h with
  | case1 len h hlt =>
    have : trace.length < len := by unfold runtimeStack at hlt; omega
    refine ⟨?_, this, .inl rfl⟩
    simp only [runtimeStack]
    exact List.take_of_length_le (by omega)
  | case2 len h hlt ih =>
    have : len ≤ trace.length := by unfold runtimeStack at hlt; omega
    refine ⟨ih.1, ih.2.1, .inr ?_⟩
    rcases ih.2.2 with h1 | h1 <;> omega

/-- C136: `stack` returns the whole trace, however long, in a buffer of 1024 bytes or less than twice the trace. -/
theorem C136_stack (trace : Bytes) :
    (stack trace).1 = trace ∧ ((stack trace).2 = 1024 ∨ (stack trace).2 ≤ 2 * trace.length) :=
  ⟨(stackLoop_spec _ _ _).1, (stackLoop_spec _ _ _).2.2⟩

example : (stack (List.replicate 5000 7)).1.length = 5000 := by rw [(C136_stack _).1, List.length_replicate]

/-! ### Requests -/

/-- The bytes are those of a request with a message that has a header. -/
def Good (b : Bytes) (h : Header) (body : Bytes) : Prop := unmarshalRouteReq {} b = .ok ⟨some ⟨some h, body⟩⟩

/-- Nobody writes to the response any more when `Call` has returned. -/
def Quiet (call : Behaviour) : Prop := ∀ w, call.sized w = call.written w

theorem encode_same (m : Option Message) : encode m m = some (Wire.Spec.routeRes ⟨m⟩) := by
  have : marshalWith (sizeRoute m) (marshalRouteTo 0x12 m) = .ok (Wire.Spec.routeRes ⟨m⟩) := marshalRouteRes_eq ⟨m⟩
  unfold encode
  rw [this]

/-- C136: exactly which bytes lead to a call, and with what: those of a request with a header; the wrapper carries this header,
with the acceptor as the previous actor, and the body. -/
theorem C136_call_exact (call : Behaviour) (uid trace b : Bytes) (w : Wrapper) :
    w ∈ (serve call uid trace b).calls ↔
      ∃ h body, Good b h body ∧ w.req = some ⟨some { h with prevActorType := enc "GrpcAcceptor" }, body⟩ ∧
        w.res = some { header := some { id := uid } } ∧ w.err = false := by
  unfold serve Good
  cases hd : unmarshalRouteReq {} b with
  | ok rq =>
    obtain ⟨m⟩ := rq
    rcases m with _ | ⟨_ | h, body⟩
    · simp [accept]
    · simp [accept]
    · simp only [accept, newMessage]
      have hw : ∀ r, w ∈ (Served.mk [⟨some { header := some { h with prevActorType := enc "GrpcAcceptor" }, body := body },
          some { header := some { id := uid } }, false⟩] r).calls ↔
          w.req = some ⟨some { h with prevActorType := enc "GrpcAcceptor" }, body⟩ ∧
          w.res = some { header := some { id := uid } } ∧ w.err = false := by
        intro r
        obtain ⟨a, c, d⟩ := w
        simp
      split
      · rw [hw]
        constructor
        · exact fun h1 => ⟨h, body, rfl, h1⟩
        · rintro ⟨h', body', he, h1⟩
          cases he
          exact h1
      · rw [hw]
        constructor
        · exact fun h1 => ⟨h, body, rfl, h1⟩
        · rintro ⟨h', body', he, h1⟩
          cases he
          exact h1
  | err e => simp
  | panic => simp
  | fuel => simp

/-- C136: and at most one call is made. -/
theorem C136_once (call : Behaviour) (uid trace b : Bytes) : (serve call uid trace b).calls.length ≤ 1 := by
  unfold serve
  repeat' split
  all_goals simp

/-- C136 (partial): whatever the bytes are and however `Call` ends, the sender gets an answer and the process goes on, if nobody
writes to the response once `Call` has returned. Missing: handlers that are still running (`C136_refuted`). -/
theorem C136_answered_partial {call : Behaviour} (hq : Quiet call) (uid trace : Bytes) {b : Bytes} (hb : b.length < 2 ^ 63) :
    (serve call uid trace b).reply ≠ none := by
  have ht := (C46_decode_total b hb).2.2.1 {}
  unfold serve
  cases hd : unmarshalRouteReq {} b with
  | ok rq =>
    simp only
    split
    · simp
    · split
      · rw [hq, encode_same]; simp
      · simp
  | err e => simp
  | panic => rw [hd] at ht; exact absurd ht (by simp [Returns])
  | fuel => rw [hd] at ht; exact absurd ht (by simp [Returns])

/-- C136: bytes that are no request with a header get an error, whatever `Call` would do. -/
theorem C136_bad (call : Behaviour) (uid trace : Bytes) {b : Bytes} (hb : b.length < 2 ^ 63) (hn : ∀ h body, ¬ Good b h body) :
    (serve call uid trace b).reply = some .codec ∨ ∃ t, (serve call uid trace b).reply = some (.recovered t) := by
  have ht := (C46_decode_total b hb).2.2.1 {}
  unfold serve
  unfold Good at hn
  cases hd : unmarshalRouteReq {} b with
  | ok rq =>
    obtain ⟨m⟩ := rq
    rcases m with _ | ⟨_ | h, body⟩
    · exact .inr ⟨_, rfl⟩
    · exact .inr ⟨_, rfl⟩
    · exact absurd hd (hn h body)
  | err e => exact .inl rfl
  | panic => rw [hd] at ht; exact absurd ht (by simp [Returns])
  | fuel => rw [hd] at ht; exact absurd ht (by simp [Returns])

/-- C136: the reply after a call: the encoded response if `Call` returned, with an error or without; the error of the recovery if
it panicked. -/
theorem C136_reply (call : Behaviour) (uid trace b : Bytes) {w : Wrapper} (hw : w ∈ (serve call uid trace b).calls) :
    (∀ f, call.ends w = .ret f → call.sized w = call.written w →
      (serve call uid trace b).reply = some (.answer (Wire.Spec.routeRes ⟨call.written w⟩))) ∧
    ∀ r, call.ends w = .panic r → (serve call uid trace b).reply = some (.recovered (recoverHandler r trace)) := by
  unfold serve at hw ⊢
  cases hd : unmarshalRouteReq {} b with
  | ok rq =>
    simp only [hd] at hw ⊢
    cases ha : accept uid rq with
    | none => simp [ha] at hw
    | some v =>
      simp only [ha] at hw ⊢
      have hv : w = v := by
        split at hw <;> simpa using hw
      subst hv
      refine ⟨fun f hf hs => ?_, fun r hr => ?_⟩
      · simp only [hf, hs, encode_same]; rfl
      · simp only [hr]
  | err e => simp [hd] at hw
  | panic => simp [hd] at hw
  | fuel => simp [hd] at hw

/-- C136: the error after a panic is the text of what was thrown and the whole trace of the stack of this node. -/
theorem C136_recovered (r : Thrown) (trace : Bytes) :
    ∃ text, (r = .error text ∨ r = .value text) ∧
      recoverHandler r trace = enc "[GRPC-SERVER RECOVER] err: " ++ text ++ enc " stack: " ++ trace := by
  cases r with
  | error t => exact ⟨t, .inl rfl, by simp [recoverHandler, (C136_stack trace).1]⟩
  | value t => exact ⟨t, .inr rfl, by simp [recoverHandler, (C136_stack trace).1]⟩

/-- C136 (exactly): what is sent if the response has changed between the two readings: with a longer encoding the process ends;
with one of the same length the new response is sent; with a shorter one that is not empty, as many bytes as it has, the first
of which is zero: no decoder accepts them. -/
theorem C136_encode_exact (sized written : Option Message) :
    ((Wire.Spec.routeRes ⟨sized⟩).length < (Wire.Spec.routeRes ⟨written⟩).length → encode sized written = none) ∧
    ((Wire.Spec.routeRes ⟨sized⟩).length = (Wire.Spec.routeRes ⟨written⟩).length →
      encode sized written = some (Wire.Spec.routeRes ⟨written⟩)) ∧
    ((Wire.Spec.routeRes ⟨written⟩).length < (Wire.Spec.routeRes ⟨sized⟩).length → Wire.Spec.routeRes ⟨written⟩ ≠ [] →
      ∃ t, encode sized written = some (0 :: t) ∧ t.length + 1 = (Wire.Spec.routeRes ⟨written⟩).length ∧
        ∀ x, unmarshalRouteRes x (0 :: t) = .err .illegalTag) := by
  have hs : sizeRoute sized = (Wire.Spec.routeRes ⟨sized⟩).length := sizeRoute_eq 2 _ sv18 sized
  have hz := C132_sized {} {} {} ⟨written⟩ {}
  refine ⟨fun h => ?_, fun h => ?_, fun h hne => ?_⟩
  · have := (hz [] (List.replicate (sizeRoute sized) 0)).2.2.2.2.2.2.2.1 (by simpa [hs] using h)
    simp only at this
    simp [encode, marshalWith, this, Res.bind]
  · have := (hz [] (List.replicate (sizeRoute sized) 0)).2.2.2.1 (by simpa [hs] using h)
    simp only [List.nil_append] at this
    simp [encode, marshalWith, this, Res.bind, slice]
  · generalize hc : Wire.Spec.routeRes ⟨written⟩ = c at *
    obtain ⟨k, hk⟩ : ∃ k, sizeRoute sized = (k + 1) + c.length := ⟨sizeRoute sized - c.length - 1, by omega⟩
    have h1 := (hz (List.replicate (k + 1) 0) (List.replicate c.length 0)).2.2.2.1 (by simp)
    rw [List.replicate_append_replicate, ← hk] at h1
    simp only at h1
    have hpos : 0 < c.length := List.length_pos_iff.2 hne
    refine ⟨(List.replicate k 0 ++ c).take (c.length - 1), ?_, ?_, ?_⟩
    · obtain ⟨l, hl⟩ : ∃ l, c.length = l + 1 := ⟨c.length - 1, by omega⟩
      have h2 : List.replicate (k + 1) 0 ++ c = 0 :: (List.replicate k 0 ++ c) := by rw [List.replicate_succ, List.cons_append]
      simp only [encode, marshalWith, h1, Res.bind, slice, h2]
      rw [if_pos (by simp; omega)]
      simp [hl]
    · simp; omega
    · intro x
      exact loop_zero _ _ _

/-- The full statement of C136. -/
def Answered : Prop := ∀ call uid trace b, b.length < 2 ^ 63 → (serve call uid trace b).reply ≠ none

/-- C136 is violated: `Call` gave up waiting for an actor and returned, and its handler adds one byte to the response while this
is encoded: the process ends. -/
theorem C136_refuted : ¬ Answered := by
  intro h
  refine h ⟨fun _ => .ret true, fun _ => some {}, fun _ => some ⟨none, [7]⟩⟩ [] [] [0x0a, 2, 0x0a, 0] (by decide) ?_
  decide +kernel

/-- A request with an empty header leads to a call and is answered; an empty request and bytes that are none get errors, without
a call; a handler that panics is reported. -/
example : Good [0x0a, 2, 0x0a, 0] {} [] ∧
    serve ⟨fun _ => .ret false, (·.res), (·.res)⟩ [1] [] [0x0a, 2, 0x0a, 0] =
      ⟨[⟨some ⟨some { prevActorType := enc "GrpcAcceptor" }, []⟩, some ⟨some { id := [1] }, []⟩, false⟩],
        some (.answer [0x12, 5, 0x0a, 3, 0x0a, 1, 1])⟩ ∧
    (serve ⟨fun _ => .ret false, (·.res), (·.res)⟩ [1] [9] []).calls = [] ∧
    (serve ⟨fun _ => .ret false, (·.res), (·.res)⟩ [1] [9] [0xff]).reply = some .codec ∧
    (serve ⟨fun _ => .panic (.value [5]), (·.res), (·.res)⟩ [1] [9] [0x0a, 2, 0x0a, 0]).reply =
      some (.recovered (recoverHandler (.value [5]) [9])) := by
  refine ⟨?_, ?_, ?_, ?_, ?_⟩
  · unfold Good; decide +kernel
  · decide +kernel
  · rfl
  · decide +kernel
  · have hg : Good [0x0a, 2, 0x0a, 0] {} [] := by unfold Good; decide +kernel
    have hc := (C136_call_exact ⟨fun _ => .panic (.value [5]), (·.res), (·.res)⟩ [1] [9] _
      ⟨some ⟨some { prevActorType := enc "GrpcAcceptor" }, []⟩, some ⟨some { id := [1] }, []⟩, false⟩).2
      ⟨{}, [], hg, rfl, rfl, rfl⟩
    exact (C136_reply _ _ _ _ hc).2 (.value [5]) rfl

example : Quiet ⟨fun _ => .ret false, (·.res), (·.res)⟩ := fun _ => rfl

/-- The response of two bytes more is cut: five bytes are sent, the first two of them zero. -/
example : encode (some ⟨none, [7, 8, 9]⟩) (some ⟨none, [7]⟩) = some [0, 0, 0x12, 3, 0x12] := by decide +kernel

end Braid.Accept
