import Verif.Payload.Spec
import Verif.System.Props
import Verif.Wire.Props

/-
Lemmas for C100.
-/
namespace Braid.Payload
open AddressBook Braid.System Braid.System.Spec Payload.Spec

theorem enc_inj {a b : String} (h : enc a = enc b) : a = b := by
  have h1 : a.toByteArray.data = b.toByteArray.data := Array.ext' h
  have h2 : a.toByteArray = b.toByteArray := by
    cases ha : a.toByteArray; cases hb : b.toByteArray; simp_all
  exact String.toByteArray_inj.mp h2

theorem sendReq_eq {w : Wrapper} {rq : Wire.RouteReq} (h : sendReq w = some rq) : rq = ⟨w.req⟩ := by
  unfold sendReq at h
  rw [(Wire.C44_encoding {} ⟨w.req⟩ {}).2.1] at h
  dsimp only at h
  split at h
  next hl =>
    obtain ⟨b, hb, hu⟩ := Wire.C44_req_roundtrip ⟨w.req⟩ hl
    rw [(Wire.C44_encoding {} ⟨w.req⟩ {}).2.1] at hb
    cases hb
    rw [hu] at h
    simpa using h.symm
  next => cases h

theorem sendReq_of {w : Wrapper} (h : (Wire.Spec.routeReq ⟨w.req⟩).length < 2 ^ 63) :
    sendReq w = some ⟨w.req⟩ := by
  unfold sendReq
  obtain ⟨b, hb, hu⟩ := Wire.C44_req_roundtrip ⟨w.req⟩ h
  have hb' := hb
  rw [(Wire.C44_encoding {} ⟨w.req⟩ {}).2.1] at hb'
  cases hb'
  rw [hb]
  dsimp only
  rw [if_pos h, hu]

theorem sendRes_eq {w : Wrapper} {rs : Wire.RouteRes} (h : sendRes w = some rs) : rs = ⟨w.res⟩ := by
  unfold sendRes at h
  rw [(Wire.C44_encoding {} {} ⟨w.res⟩).2.2] at h
  dsimp only at h
  split at h
  next hl =>
    obtain ⟨b, hb, hu⟩ := Wire.C44_res_roundtrip ⟨w.res⟩ hl
    rw [(Wire.C44_encoding {} {} ⟨w.res⟩).2.2] at hb
    cases hb
    rw [hu] at h
    simpa using h.symm
  next => cases h

theorem sendRes_of {w : Wrapper} (h : (Wire.Spec.routeRes ⟨w.res⟩).length < 2 ^ 63) :
    sendRes w = some ⟨w.res⟩ := by
  unfold sendRes
  obtain ⟨b, hb, hu⟩ := Wire.C44_res_roundtrip ⟨w.res⟩ h
  have hb' := hb
  rw [(Wire.C44_encoding {} {} ⟨w.res⟩).2.2] at hb'
  cases hb'
  rw [hb]
  dsimp only
  rw [if_pos h, hu]

/-- The header after the three assignments. -/
def addressed (target ty ev : String) (h : Wire.Header) : Wire.Header :=
  { h with event := enc ev, targetActorID := enc target, targetActorType := enc ty }

/-- The header at the acceptor. -/
def accepted (target ty ev : String) (h : Wire.Header) : Wire.Header :=
  { addressed target ty ev h with prevActorType := enc "GrpcAcceptor" }

/-- What the three assignments do. -/
theorem setTarget_some {target ty ev : String} {w w1 : Wrapper} (h : setTarget target ty ev w = some w1) :
    ∃ hd b, w.req = some { header := some hd, body := b } ∧
      w1 = { w with req := some { header := some (addressed target ty ev hd), body := b } } := by
  unfold setTarget at h
  split at h
  next hd b heq => exact ⟨hd, b, heq, (Option.some.inj h).symm⟩
  next => cases h

theorem setTarget_none {target ty ev : String} {w : Wrapper} (h : setTarget target ty ev w = none) :
    ∀ hd b, w.req ≠ some { header := some hd, body := b } := by
  intro hd b heq
  simp [setTarget, heq] at h

theorem setTarget_of {target ty ev : String} {w : Wrapper} {hd : Wire.Header} {b : Wire.Bytes}
    (h : w.req = some { header := some hd, body := b }) :
    setTarget target ty ev w = some { w with req := some { header := some (addressed target ty ev hd), body := b } } := by
  simp [setTarget, h, addressed]

/-- What the acceptor makes of a request that `Call` sent, and what it asks for. -/
theorem accept_sent {target ty ev target' ty' ev' : String} {w w1 w2 : Wrapper} {rq : Wire.RouteReq}
    {uid : Wire.Bytes} (h1 : setTarget target ty ev w = some w1) (h2 : sendReq w1 = some rq)
    (h3 : accept uid rq = some w2) (h4 : Asks w2 target' ty' ev') :
    target' = target ∧ ty' = ty ∧ ev' = ev ∧ ∃ hd b, w.req = some { header := some hd, body := b } ∧
      w2 = ⟨some { header := some (accepted target ty ev hd), body := b }, some (newMessage uid), false⟩ := by
  obtain ⟨hd, b, hw, hw1⟩ := setTarget_some h1
  have hrq := sendReq_eq h2
  subst hrq
  rw [hw1] at h3
  have h3' : w2 = ⟨some { header := some (accepted target ty ev hd), body := b }, some (newMessage uid), false⟩ := by
    simpa [accept, accepted] using h3.symm
  obtain ⟨h, b', ha, hb1, hb2, hb3⟩ := h4
  rw [h3'] at ha
  simp only [Option.some.injEq, Wire.Message.mk.injEq] at ha
  obtain ⟨rfl, -⟩ := ha
  exact ⟨(enc_inj hb1).symm, (enc_inj hb2).symm, (enc_inj hb3).symm, hd, b, hw, h3'⟩

theorem accept_of {target ty ev : String} {w w1 : Wrapper} (uid : Wire.Bytes)
    (h1 : setTarget target ty ev w = some w1) :
    ∃ w2, accept uid ⟨w1.req⟩ = some w2 ∧ Asks w2 target ty ev := by
  obtain ⟨hd, b, hw, hw1⟩ := setTarget_some h1
  rw [hw1]
  exact ⟨⟨some ⟨some (accepted target ty ev hd), b⟩, some (newMessage uid), false⟩, rfl, accepted target ty ev hd, b,
    rfl, rfl, rfl, rfl⟩

variable {C : Cluster} {W : World} {act : Behaviour}

/-- The request that a delivery carries, and the way it took. -/
theorem delivery {target ty ev : String} {n : Nat} {w w' : Wrapper} {d : Option Delivery} {r : Ret}
    (h : Calls C W act target ty ev n w d r w') :
    ∀ x, d = some x → Travel C W target ty n x.hops (.delivered x.node x.id) ∧
      ∃ hd b, w.req = some { header := some hd, body := b } ∧
        (x.hops = 0 → x.got = { w with req := some { header := some (addressed target ty ev hd), body := b } }) ∧
        (x.hops ≠ 0 → ∃ uid, x.got =
          ⟨some { header := some (accepted target ty ev hd), body := b }, some (newMessage uid), false⟩) := by
  have hop : ∀ {target ty ev : String} {n : Nat} {w w1 : Wrapper} {or : Oracle} {a : Addr} {m : Nat}
      {uid : Wire.Bytes} {rq : Wire.RouteReq} {w2 : Wrapper} {target' ty' ev' : String} {d : Option Delivery},
      setTarget target ty ev w = some w1 → or.Valid C W n ty → route C W n target ty or = .forward a →
      C.listen a.ip a.port = some m → sendReq w1 = some rq → accept uid rq = some w2 → Asks w2 target' ty' ev' →
      (∀ x, d = some x → Travel C W target' ty' m x.hops (.delivered x.node x.id) ∧
        ∃ hd b, w2.req = some { header := some hd, body := b } ∧
          (x.hops = 0 → x.got = { w2 with req := some { header := some (addressed target' ty' ev' hd), body := b } }) ∧
          (x.hops ≠ 0 → ∃ uid, x.got =
            ⟨some { header := some (accepted target' ty' ev' hd), body := b }, some (newMessage uid), false⟩)) →
      ∀ x, d.map Delivery.far = some x → Travel C W target ty n x.hops (.delivered x.node x.id) ∧
        ∃ hd b, w.req = some { header := some hd, body := b } ∧
          (x.hops = 0 → x.got = { w with req := some { header := some (addressed target ty ev hd), body := b } }) ∧
          (x.hops ≠ 0 → ∃ uid, x.got =
            ⟨some { header := some (accepted target ty ev hd), body := b }, some (newMessage uid), false⟩) := by
    intro target ty ev n w w1 or a m uid rq w2 target' ty' ev' d h1 h2 h3 h4 h5 h6 h7 ih x hx
    obtain ⟨rfl, rfl, rfl, hd, b, hw, hw2⟩ := accept_sent h1 h5 h6 h7
    cases d with
    | none => cases hx
    | some y =>
      cases hx
      obtain ⟨ht, hd', b', hr, g0, g1⟩ := ih y rfl
      refine ⟨.hop h2 h3 h4 ht, hd, b, hw, fun h => absurd h (Nat.succ_ne_zero _), fun _ => ?_⟩
      rw [hw2] at hr
      simp only [Option.some.injEq, Wire.Message.mk.injEq] at hr
      obtain ⟨rfl, rfl⟩ := hr
      show ∃ uid, y.got = _
      by_cases hz : y.hops = 0
      · refine ⟨uid, ?_⟩
        rw [g0 hz, hw2]
        rfl
      · obtain ⟨u, hu⟩ := g1 hz
        exact ⟨u, by rw [hu]; rfl⟩
  induction h with
  | bad _ => intro x hx; cases hx
  | here h1 h2 h3 =>
    intro x hx
    cases hx
    obtain ⟨hd, b, hw, hw1⟩ := setTarget_some h1
    refine ⟨.stop h2 (by rw [h3]; rfl), hd, b, hw, fun _ => hw1, fun h => absurd rfl h⟩
  | fail _ _ _ => intro x hx; cases hx
  | crash _ _ _ => intro x hx; cases hx
  | lost _ _ _ => intro x hx; cases hx
  | cut h1 h2 h3 h4 h5 h6 h7 _ ih => exact hop h1 h2 h3 h4 h5 h6 h7 ih
  | refuse _ _ _ _ _ _ => intro x hx; cases hx
  | panic h1 h2 h3 h4 h5 h6 h7 _ ih => exact hop h1 h2 h3 h4 h5 h6 h7 ih
  | answer h1 h2 h3 h4 h5 h6 h7 _ _ _ ih => exact hop h1 h2 h3 h4 h5 h6 h7 ih

/-- What the caller finds in its wrapper. -/
theorem result {target ty ev : String} {n : Nat} {w w' : Wrapper} {d : Option Delivery} {r : Ret}
    (h : Calls C W act target ty ev n w d r w') :
    (∃ x, d = some x ∧ x.hops = 0 ∧ w' = (act x.node x.id x.got).1 ∧ r = (act x.node x.id x.got).2) ∨
    ((∀ x, d = some x → x.hops ≠ 0) ∧ w'.err = w.err ∧
      (r = .nil ∧ (Blank w'.res ∨ ∃ x, d = some x ∧ w'.res = (act x.node x.id x.got).1.res ∧
        (x.hops = 1 → (act x.node x.id x.got).2 ≠ .panic)) ∨ r ≠ .nil ∧ w'.res = w.res)) := by
  have far : ∀ {d : Option Delivery} x, d.map Delivery.far = some x → x.hops ≠ 0 := by
    intro d x hx
    cases d with
    | none => cases hx
    | some y => cases hx; exact Nat.succ_ne_zero _
  have same : ∀ {target ty ev : String} {w w1 : Wrapper}, setTarget target ty ev w = some w1 →
      w1.err = w.err ∧ w1.res = w.res := by
    intro target ty ev w w1 h1
    obtain ⟨hd, b, -, rfl⟩ := setTarget_some h1
    exact ⟨rfl, rfl⟩
  induction h with
  | bad _ => exact .inr ⟨by simp, rfl, .inr ⟨by simp, rfl⟩⟩
  | here h1 h2 h3 => exact .inl ⟨_, rfl, rfl, rfl, rfl⟩
  | fail h1 _ _ => exact .inr ⟨by simp, (same h1).1, .inr ⟨by simp, (same h1).2⟩⟩
  | crash h1 _ _ => exact .inr ⟨by simp, (same h1).1, .inr ⟨by simp, (same h1).2⟩⟩
  | lost h1 _ _ => exact .inr ⟨by simp, (same h1).1, .inr ⟨by simp, (same h1).2⟩⟩
  | cut h1 h2 h3 h4 h5 h6 h7 _ ih => exact .inr ⟨far, (same h1).1, .inr ⟨by simp, (same h1).2⟩⟩
  | refuse h1 _ _ _ _ _ => exact .inr ⟨by simp, (same h1).1, .inr ⟨by simp, (same h1).2⟩⟩
  | panic h1 h2 h3 h4 h5 h6 h7 _ ih => exact .inr ⟨far, (same h1).1, .inr ⟨by simp, (same h1).2⟩⟩
  | @answer target ty ev n w w1 or a m uid rq w2 target' ty' ev' d r w3 rs h1 h2 h3 h4 h5 h6 h7 _ hr hs ih =>
    refine .inr ⟨far, (same h1).1, .inl ⟨rfl, ?_⟩⟩
    have hrs := sendRes_eq hs
    subst hrs
    rcases ih with ⟨x, rfl, hx0, hw3, hrr⟩ | ⟨hx, -, ⟨-, hb | ⟨x, rfl, hres, hp⟩⟩ | ⟨-, hres⟩⟩
    · refine .inr ⟨x.far, rfl, ?_, fun _ => ?_⟩
      · show w3.res = (act x.node x.id x.got).1.res
        rw [hw3]
      · show (act x.node x.id x.got).2 ≠ .panic
        rw [← hrr]; exact hr
    · exact .inl hb
    · exact .inr ⟨x.far, rfl, hres, fun h => absurd (Nat.succ.inj h) (hx x rfl)⟩
    · left
      obtain ⟨-, -, -, hd, b, -, hw2⟩ := accept_sent h1 h5 h6 h7
      exact ⟨uid, by show w3.res = _; rw [hres, hw2]; rfl⟩

end Braid.Payload
