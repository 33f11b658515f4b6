import Verif.Payload.Lemmas

/-
C100: a call to another node carries the request there and the response back.
-/
namespace Braid.Payload
open AddressBook Braid.System Braid.System.Spec Payload.Spec

variable {C : Cluster} {W : World} {act : Behaviour} {target ty ev : String} {n m : Nat} {w w' : Wrapper}
  {d : Option Delivery} {r : Ret}

/-- The three assignments keep everything else. -/
theorem arrives_addressed (hd : Wire.Header) (b : Wire.Bytes) :
    Arrives target ty ev ⟨some hd, b⟩ ⟨some (addressed target ty ev hd), b⟩ :=
  ⟨⟨hd, _, rfl, rfl, rfl, rfl, rfl, rfl, rfl, rfl, rfl, rfl, rfl⟩, rfl⟩

theorem arrives_accepted (hd : Wire.Header) (b : Wire.Bytes) :
    Arrives target ty ev ⟨some hd, b⟩ ⟨some (accepted target ty ev hd), b⟩ :=
  ⟨⟨hd, _, rfl, rfl, rfl, rfl, rfl, rfl, rfl, rfl, rfl, rfl, rfl⟩, rfl⟩

/-- C100, the way there: whatever the target, a message that is handed to an actor after any number of hops is the
request as the caller built it, addressed as the call says, byte by byte; and the actor is one to which the message
may travel. (The previous actor type is that of the caller only within a node, see C22.) -/
theorem C100_request {x : Delivery} (h : Calls C W act target ty ev n w (some x) r w') :
    Travel C W target ty n x.hops (.delivered x.node x.id) ∧
    ∃ a b, w.req = some a ∧ x.got.req = some b ∧ Arrives target ty ev a b ∧
      prev x.got.req = if x.hops = 0 then prev w.req else some (enc "GrpcAcceptor") := by
  obtain ⟨ht, hd, b, hw, h0, h1⟩ := delivery h x rfl
  refine ⟨ht, ?_⟩
  by_cases hz : x.hops = 0
  · have hg := h0 hz
    refine ⟨_, ⟨some (addressed target ty ev hd), b⟩, hw, by rw [hg], arrives_addressed hd b, ?_⟩
    rw [if_pos hz, hg, hw]
    rfl
  · obtain ⟨uid, hg⟩ := h1 hz
    refine ⟨_, ⟨some (accepted target ty ev hd), b⟩, hw, by rw [hg], arrives_accepted hd b, ?_⟩
    rw [if_neg hz, hg]
    rfl

/-- C100, the way back (partial): if a call that left the node returns nil, the response is what the actor left in
its wrapper, byte by byte, or blank; after a single hop to an actor it is what the actor left. If the call fails,
the response is as before. Missing: a response that is not blank after a failure behind the first hop
(`C100_failure_refuted`, `C100_two_hops_refuted`), the wrapper's error (`C100_error_refuted`) and what the caller had
put into the response (`C100_prefilled_refuted`). -/
theorem C100_response_partial (h : Calls C W act target ty ev n w d r w') (hrem : ∀ x, d = some x → x.hops ≠ 0) :
    (r ≠ .nil → w'.res = w.res) ∧
    (r = .nil → (∃ x, d = some x ∧ w'.res = (act x.node x.id x.got).1.res) ∨ Blank w'.res) ∧
    (∀ x, r = .nil → d = some x → x.hops = 1 →
      w'.res = (act x.node x.id x.got).1.res ∧ (act x.node x.id x.got).2 ≠ .panic) := by
  refine ⟨?_, ?_, ?_⟩
  · intro hr
    rcases result h with ⟨x, hx, h0, -, -⟩ | ⟨-, -, ⟨hn, -⟩ | ⟨-, hres⟩⟩
    · exact absurd h0 (hrem x hx)
    · exact absurd hn hr
    · exact hres
  · intro hr
    rcases result h with ⟨x, hx, h0, -, -⟩ | ⟨-, -, ⟨-, hb | ⟨x, hx, hres, -⟩⟩ | ⟨hn, -⟩⟩
    · exact absurd h0 (hrem x hx)
    · exact .inr hb
    · exact .inl ⟨x, hx, hres⟩
    · exact absurd hr hn
  · intro x hr hx h1
    subst hr hx
    generalize hdd : some x = dd at h
    generalize hrr : Ret.nil = rr at h
    cases h with
    | bad _ => cases hdd
    | here => cases hdd; cases h1
    | fail => cases hdd
    | crash => cases hdd
    | lost => cases hdd
    | cut => cases hrr
    | refuse => cases hdd
    | panic => cases hrr
    | @answer _ _ _ _ _ w1 or a m uid rq w2 target' ty' ev' d r w3 rs h1' h2 h3 h4 h5 h6 h7 hc hr hs =>
      cases d with
      | none => cases hdd
      | some y =>
        cases hdd
        have hy : y.hops = 0 := Nat.succ.inj h1
        have hrs := sendRes_eq hs
        subst hrs
        rcases result hc with ⟨z, hz, -, hw3, hrz⟩ | ⟨hne, -⟩
        · cases hz
          constructor
          · show w3.res = (act y.node y.id y.got).1.res
            rw [hw3]
          · show (act y.node y.id y.got).2 ≠ .panic
            rw [← hrz]; exact hr
        · exact absurd hy (hne y rfl)

/-- A delivery within the node works on the caller's own wrapper. -/
theorem C100_local {x : Delivery} (h : Calls C W act target ty ev n w (some x) r w') (h0 : x.hops = 0) :
    x.node = n ∧ x.got.res = w.res ∧ x.got.err = w.err ∧ w' = (act n x.id x.got).1 ∧ r = (act n x.id x.got).2 := by
  obtain ⟨ht, hd, b, hw, hg, -⟩ := delivery h x rfl
  have hn : x.node = n := by
    rw [h0] at ht
    cases ht with
    | stop _ ho =>
      cases hroute : route C W n target ty _ <;> rw [hroute] at ho <;> simp [Decision.outcome] at ho
      exact ho.1.symm
  rcases result h with ⟨z, hz, -, hw', hr⟩ | ⟨hne, -⟩
  · cases hz
    rw [hn] at hw' hr
    rw [hg h0]
    rw [hg h0] at hw' hr
    exact ⟨hn, rfl, rfl, hw', hr⟩
  · exact absurd h0 (hne x rfl)

/-- C100, calls by id (partial): in a consistent cluster, a call to an actor on another node either fails and leaves the
response alone, or returns nil, and then the actor got the request with a blank response, and the caller has what
the actor left in it. Missing as in `C100_response_partial`; the actor may have refused the message. -/
theorem C100_by_id_partial (hc : Consistent C W) (hp : Plain target) {ty' : String} (hh : Hosts C m target ty')
    (hnm : n ≠ m) (h : Calls C W act target ty ev n w d r w') :
    (r ≠ .nil ∧ w'.res = w.res) ∨
    (r = .nil ∧ ∃ got a b, d = some ⟨m, target, got, 1⟩ ∧ w.req = some a ∧ got.req = some b ∧
      Arrives target ty ev a b ∧ Blank got.res ∧ got.err = false ∧ w'.res = (act m target got).1.res ∧
      (act m target got).2 ≠ .panic) := by
  have hwhere : ∀ x, d = some x → x.hops = 1 ∧ x.node = m ∧ x.id = target := by
    rintro x rfl
    rcases (C24_by_id_partial hc target ty hp n x.hops _).1 (C100_request h).1 with
      ⟨ty2, h2, -, -⟩ | ⟨m2, ty2, hne, h2, hk, ho⟩ | ⟨hno, -⟩
    · exact absurd (hc.unique _ _ _ _ _ h2 hh).1 hnm
    · have := (hc.unique _ _ _ _ _ h2 hh).1
      subst this
      cases ho
      exact ⟨hk, rfl, rfl⟩
    · exact absurd hh (hno _ _)
  have hrem : ∀ x, d = some x → x.hops ≠ 0 := fun x hx => by rw [(hwhere x hx).1]; decide
  obtain ⟨p1, p2, p3⟩ := C100_response_partial h hrem
  by_cases hr : r = .nil
  · right
    refine ⟨hr, ?_⟩
    have hsome : ∃ x, d = some x := by
      cases h with
      | bad _ => cases hr
      | here => exact ⟨_, rfl⟩
      | fail => cases hr
      | crash => cases hr
      | lost => cases hr
      | cut => cases hr
      | refuse => cases hr
      | panic => cases hr
      | @answer _ _ _ _ _ w1 or a m1 uid rq w2 target' ty1 ev' d r w3 rs h1' h2 h3 h4 h5 h6 h7 hcm hr' hs =>
        obtain ⟨rfl, rfl, rfl, hd, b, hw, hw2⟩ := accept_sent h1' h5 h6 h7
        rw [route_other hc hp hh hnm] at h3
        cases h3
        have hm1 : m1 = m := by
          have := (hc.listen m).symm.trans h4
          exact (Option.some.inj this).symm
        subst hm1
        have hhere : ∀ o, route C W m1 target' ty1 o = .here target' :=
          fun o => route_here hp (hc.named _ _ _ hh) hh o
        cases hcm with
        | bad hb => exact absurd (by rw [hw2]) (setTarget_none hb (accepted target' ty1 ev' hd) b)
        | here => exact ⟨_, rfl⟩
        | fail _ _ hf => rw [hhere] at hf; cases hf
        | crash _ _ hf => rw [hhere] at hf; cases hf
        | lost _ _ hf => rw [hhere] at hf; cases hf
        | cut _ _ hf => rw [hhere] at hf; cases hf
        | refuse _ _ hf => rw [hhere] at hf; cases hf
        | panic _ _ hf => rw [hhere] at hf; cases hf
        | answer _ _ hf => rw [hhere] at hf; cases hf
    obtain ⟨x, hx⟩ := hsome
    obtain ⟨hk, hm, hid⟩ := hwhere x hx
    obtain ⟨q1, q2⟩ := p3 x hr hx hk
    subst hx
    obtain ⟨-, hd, b, hw, -, hg⟩ := delivery h x rfl
    obtain ⟨uid, hgot⟩ := hg (by rw [hk]; decide)
    obtain ⟨xn, xi, xg, xh⟩ := x
    dsimp only at hk hm hid hgot q1 q2
    subst hk; subst hm; subst hid
    exact ⟨xg, _, ⟨some (accepted xi ty ev hd), b⟩, rfl, hw, by rw [hgot], arrives_accepted hd b,
      ⟨uid, by rw [hgot]; rfl⟩, by rw [hgot], q1, q2⟩
  · exact .inl ⟨hr, p1 hr⟩

/-- C100: and such a call succeeds whenever the transport works and the actor does not panic. -/
theorem C100_delivers (hc : Consistent C W) (hp : Plain target) {ty' : String} (hh : Hosts C m target ty')
    (hnm : n ≠ m) {w1 : Wrapper} (hset : setTarget target ty ev w = some w1)
    (hlen : (Wire.Spec.routeReq ⟨w1.req⟩).length < 2 ^ 63) (uid : Wire.Bytes)
    (hact : ∀ got, got.res = some (newMessage uid) → (act m target got).2 ≠ .panic ∧
      (Wire.Spec.routeRes ⟨(act m target got).1.res⟩).length < 2 ^ 63) :
    ∃ got w', Calls C W act target ty ev n w (some ⟨m, target, got, 1⟩) .nil w' ∧ got.res = some (newMessage uid) := by
  obtain ⟨w2, hacc, hask⟩ := accept_of uid hset
  obtain ⟨o, ho⟩ := exists_oracle hc n ty
  obtain ⟨o', ho'⟩ := exists_oracle hc m ty
  obtain ⟨hd, b, hw, hw2⟩ := (accept_sent hset (sendReq_of hlen) hacc hask).2.2.2
  have hset2 : setTarget target ty ev w2 = some w2 := by
    rw [hw2]; rfl
  have hres : w2.res = some (newMessage uid) := by rw [hw2]
  obtain ⟨h1, h2⟩ := hact w2 hres
  have hin : Calls C W act target ty ev m w2 (some ⟨m, target, w2, 0⟩) _ _ :=
    .here hset2 ho' (route_here hp (hc.named _ _ _ hh) hh o')
  exact ⟨w2, _, .answer hset ho (route_other hc hp hh hnm o) (hc.listen m) (sendReq_of hlen) hacc hask hin h1
    (sendRes_of h2), hres⟩

/-- C100, location transparency: if what the actor answers depends on the request only, a call by id that returns nil
leaves the same body in the response wherever the caller is: on the node of the actor or on any other. -/
theorem C100_transparent_partial (hc : Consistent C W) (hp : Plain target) {ty' : String} (hh : Hosts C m target ty')
    (hact : OnRequest act) (hnm : n ≠ m) {d2 : Option Delivery} {r2 : Ret} {v v' : Wrapper} (hreq : v.req = w.req)
    (h : Calls C W act target ty ev n w d .nil w') (h2 : Calls C W act target ty ev m v d2 r2 v') :
    body w'.res = body v'.res := by
  rcases C100_by_id_partial hc hp hh hnm h with ⟨hn, -⟩ | ⟨-, got, a, b, rfl, ha, hb, harr, -, -, hres, -⟩
  · exact absurd rfl hn
  have hhere : ∀ o, route C W m target ty o = .here target := fun o => route_here hp (hc.named _ _ _ hh) hh o
  have hd : ∃ x, d2 = some x ∧ x.hops = 0 ∧ x.id = target := by
    cases h2 with
    | bad hb =>
      obtain ⟨-, hd, b', hw, -⟩ := delivery h _ rfl
      exact absurd (hreq.trans hw) (setTarget_none hb hd b')
    | here _ _ hf => rw [hhere] at hf; cases hf; exact ⟨_, rfl, rfl, rfl⟩
    | fail _ _ hf => rw [hhere] at hf; cases hf
    | crash _ _ hf => rw [hhere] at hf; cases hf
    | lost _ _ hf => rw [hhere] at hf; cases hf
    | cut _ _ hf => rw [hhere] at hf; cases hf
    | refuse _ _ hf => rw [hhere] at hf; cases hf
    | panic _ _ hf => rw [hhere] at hf; cases hf
    | answer _ _ hf => rw [hhere] at hf; cases hf
  obtain ⟨x, rfl, hx0, hxid⟩ := hd
  obtain ⟨-, -, -, hv', -⟩ := C100_local h2 hx0
  obtain ⟨-, a2, b2, ha2, hb2, harr2, -⟩ := C100_request h2
  rw [hreq, ha] at ha2
  cases ha2
  rw [hres, hv', hxid]
  exact (hact m target got x.got target ty ev a b b2 hb hb2 harr harr2).1

/-! ### An example -/

/-- A request with a body, and a response into which the caller has already written. -/
def exW : Wrapper :=
  ⟨some { header := some { id := [1], prevActorType := enc "t", token := [2] }, body := [3, 4] },
    some { header := some { id := [1] }, body := [7] }, false⟩

/-- The address book of the example cluster. -/
abbrev exBook : World := runOps exCfg exOps

theorem exHosts : Hosts exC 1 "z" "t" := by simp [Hosts, exC, exNode]

theorem exPlain : Plain "z" := ⟨by decide, by decide⟩

theorem req_len (q : Wire.RouteReq) (h : Wire.sizeRoute q.msg < 2 ^ 63) : (Wire.Spec.routeReq q).length < 2 ^ 63 := by
  obtain ⟨b, hb, hl⟩ := (Wire.C45_size_exact {} {} q {}).2.2.1
  rw [(Wire.C44_encoding {} q {}).2.1] at hb
  cases hb
  omega

theorem res_len (q : Wire.RouteRes) (h : Wire.sizeRoute q.msg < 2 ^ 63) : (Wire.Spec.routeRes q).length < 2 ^ 63 := by
  obtain ⟨b, hb, hl⟩ := (Wire.C45_size_exact {} {} {} q).2.2.2
  rw [(Wire.C44_encoding {} {} q).2.2] at hb
  cases hb
  omega

/-- An actor that answers `answer` to every request. -/
def answers (answer : Wire.Bytes) (ret : Ret) : Behaviour := fun _ _ w =>
  (match w.res with
   | some m => { w with res := some { m with body := answer } }
   | none => w, ret)

/-- An actor that leaves the wrapper as it is. -/
def leaves (ret : Ret) : Behaviour := fun _ _ w => (w, ret)

/-- An actor that sets the error of the wrapper. -/
def complains : Behaviour := fun _ _ w => ({ w with err := true }, .nil)

/-- Calls from node 0 to "z" on node 1 are possible with these actors. -/
theorem ex_remote (act : Behaviour) (hact : ∀ got, got.res = some (newMessage [9]) → (act 1 "z" got).2 ≠ .panic ∧
    Wire.sizeRoute (act 1 "z" got).1.res < 2 ^ 63) :
    ∃ got w', Calls exC exBook act "z" "t" "e" 0 exW (some ⟨1, "z", got, 1⟩) .nil w' ∧
      got.res = some (newMessage [9]) :=
  C100_delivers (w1 := ⟨some { header := some (addressed "z" "t" "e"
      { id := [1], prevActorType := enc "t", token := [2] }), body := [3, 4] }, exW.res, false⟩)
    exC_consistent exPlain exHosts (by decide) rfl (req_len _ (by decide +kernel)) [9]
    fun got hg => ⟨(hact got hg).1, res_len _ (hact got hg).2⟩

/-- Calls on node 1 to "z". -/
theorem ex_local (act : Behaviour) {d : Option Delivery} {r : Ret} {w' : Wrapper}
    (h : Calls exC exBook act "z" "t" "e" 1 exW d r w') :
    ∃ x, d = some x ∧ x.hops = 0 ∧ x.id = "z" ∧ x.got.res = exW.res ∧ x.got.err = exW.err ∧
      w' = (act 1 "z" x.got).1 ∧ r = (act 1 "z" x.got).2 := by
  have hhere : ∀ o, route exC exBook 1 "z" "t" o = .here "z" :=
    fun o => route_here exPlain (by decide) exHosts o
  cases h with
  | bad hb => cases hb
  | here hs hv hf =>
    have hf' := hf
    rw [hhere] at hf'
    cases hf'
    obtain ⟨h1, h2, h3, h4, h5⟩ := C100_local (.here (act := act) hs hv hf) rfl
    exact ⟨_, rfl, rfl, rfl, h2, h3, h4, h5⟩
  | fail _ _ hf => rw [hhere] at hf; cases hf
  | crash _ _ hf => rw [hhere] at hf; cases hf
  | lost _ _ hf => rw [hhere] at hf; cases hf
  | cut _ _ hf => rw [hhere] at hf; cases hf
  | refuse _ _ hf => rw [hhere] at hf; cases hf
  | panic _ _ hf => rw [hhere] at hf; cases hf
  | answer _ _ hf => rw [hhere] at hf; cases hf

/-- C100 is violated by failures: in a consistent cluster, "z" refuses every message. On its own node the call
returns an error; from another node it returns nil, and the response is blank. -/
theorem C100_failure_refuted : Consistent exC exBook ∧
    (∀ d r w', Calls exC exBook (leaves .error) "z" "t" "e" 1 exW d r w' → r = .error) ∧
    ∃ d w', Calls exC exBook (leaves .error) "z" "t" "e" 0 exW d .nil w' ∧ Blank w'.res ∧ ¬ Blank exW.res := by
  refine ⟨exC_consistent, ?_, ?_⟩
  · intro d r w' h
    obtain ⟨x, -, -, -, -, -, -, hr⟩ := ex_local _ h
    exact hr
  · obtain ⟨got, w', h, hg⟩ := ex_remote (leaves .error) fun got hg => ⟨by simp [leaves], by
      simp only [leaves, hg]; decide +kernel⟩
    refine ⟨_, w', h, ?_, ?_⟩
    · rw [((C100_response_partial h (by rintro x hx; cases hx; exact Nat.one_ne_zero)).2.2 _ rfl rfl rfl).1]
      exact ⟨[9], hg⟩
    · rintro ⟨uid, hu⟩
      simp [exW] at hu

/-- C100 is violated by what the caller has put into the response: an actor that leaves the response alone leaves
it to a caller on its own node, and takes it from a caller on another node. -/
theorem C100_prefilled_refuted : Consistent exC exBook ∧
    (∀ d r w', Calls exC exBook (leaves .nil) "z" "t" "e" 1 exW d r w' → r = .nil ∧ w'.res = exW.res) ∧
    ∃ d w', Calls exC exBook (leaves .nil) "z" "t" "e" 0 exW d .nil w' ∧ body w'.res = some [] ∧
      body exW.res = some [7] := by
  refine ⟨exC_consistent, ?_, ?_⟩
  · intro d r w' h
    obtain ⟨x, -, -, -, hres, -, hw, hr⟩ := ex_local _ h
    exact ⟨hr, by rw [hw]; exact hres⟩
  · obtain ⟨got, w', h, hg⟩ := ex_remote (leaves .nil) fun got hg => ⟨by simp [leaves], by
      simp only [leaves, hg]; decide +kernel⟩
    refine ⟨_, w', h, ?_, rfl⟩
    rw [((C100_response_partial h (by rintro x hx; cases hx; exact Nat.one_ne_zero)).2.2 _ rfl rfl rfl).1]
    simp only [leaves, hg]
    rfl

/-- C100 is violated by the error of the wrapper, always: a call that is not answered on its own node leaves it as it
was, whatever the actor does. -/
theorem C100_error_never (h : Calls C W act target ty ev n w d r w') (hrem : ∀ x, d = some x → x.hops ≠ 0) :
    w'.err = w.err := by
  rcases result h with ⟨x, hx, h0, -, -⟩ | ⟨-, he, -⟩
  · exact absurd h0 (hrem x hx)
  · exact he

/-- C100 is violated: "z" reports an error in the wrapper. A caller on its node finds it, a caller on another node does
not. -/
theorem C100_error_refuted : Consistent exC exBook ∧
    (∀ d r w', Calls exC exBook complains "z" "t" "e" 1 exW d r w' → w'.err = true) ∧
    ∃ d w', Calls exC exBook complains "z" "t" "e" 0 exW d .nil w' ∧ w'.err = false := by
  refine ⟨exC_consistent, ?_, ?_⟩
  · intro d r w' h
    obtain ⟨x, -, -, -, -, -, hw, -⟩ := ex_local _ h
    rw [hw]; rfl
  · obtain ⟨got, w', h, hg⟩ := ex_remote complains fun got hg => ⟨by simp [complains], by
      simp only [complains, hg]; decide +kernel⟩
    exact ⟨_, w', h, C100_error_never h (by rintro x hx; cases hx; exact Nat.one_ne_zero)⟩

/-- C100 is violated after two hops: a call with `?` goes from node 0 to node 1 and back, "x" answers, the answer is lost
between the nodes, and node 1 reports success with a blank response. -/
theorem C100_two_hops_refuted : ∃ x w', Consistent exC (runOps exCfg eqOps) ∧
    Calls exC (runOps exCfg eqOps) (answers [5] .nil) "?" "t" "e" 0 exW (some x) .nil w' ∧
    body (answers [5] .nil x.node x.id x.got).1.res = some [5] ∧ Blank w'.res := by
  have ha : (runOps exCfg eqOps).redis.tys "t" =
    [⟨"x", "t", "a", "10.0.0.1", 0⟩, ⟨"z", "t", "aa", "10.0.0.1", 1⟩] := by decide +kernel
  have v0 : ∀ n, (⟨[⟨"x", "t", "a", "10.0.0.1", 0⟩, ⟨"z", "t", "aa", "10.0.0.1", 1⟩],
      (exC.node n).actors⟩ : Oracle).Valid exC (runOps exCfg eqOps) n "t" := by
    intro n
    refine ⟨?_, List.Perm.refl _⟩
    rw [ha]
    exact ⟨by simp, by simp, by simp⟩
  have v1 : ∀ n, (⟨[⟨"z", "t", "aa", "10.0.0.1", 1⟩, ⟨"x", "t", "a", "10.0.0.1", 0⟩],
      (exC.node n).actors⟩ : Oracle).Valid exC (runOps exCfg eqOps) n "t" := by
    intro n
    refine ⟨?_, List.Perm.refl _⟩
    rw [ha]
    exact ⟨by simp, by simp, by simp⟩
  let hd : Wire.Header := { id := [1], prevActorType := enc "t", token := [2] }
  let w1 : Wrapper := ⟨some ⟨some (addressed "?" "t" "e" hd), [3, 4]⟩, exW.res, false⟩
  let w2 (u : Wire.Bytes) : Wrapper := ⟨some ⟨some (accepted "?" "t" "e" hd), [3, 4]⟩, some (newMessage u), false⟩
  have s2 : ∀ u, setTarget "?" "t" "e" (w2 u) = some (w2 u) := fun u => rfl
  have l1 : sendReq w1 = some ⟨w1.req⟩ := sendReq_of (req_len _ (by decide +kernel))
  have l2 : ∀ u, sendReq (w2 u) = some ⟨(w2 u).req⟩ := fun u => sendReq_of (req_len _ (by
    show Wire.sizeRoute (some ⟨some (accepted "?" "t" "e" ⟨[1], [], [], enc "t", [], [], [], [2], 0, []⟩), [3, 4]⟩) < 2 ^ 63
    decide +kernel))
  have ask : ∀ u, Asks (w2 u) "?" "t" "e" := fun u => ⟨_, _, rfl, rfl, rfl, rfl⟩
  have c0 : Calls exC (runOps exCfg eqOps) (answers [5] .nil) "?" "t" "e" 0 (w2 [8]) (some ⟨0, "x", w2 [8], 0⟩) .nil
      (answers [5] .nil 0 "x" (w2 [8])).1 :=
    .here (id := "x") (s2 [8]) (v0 0) (by decide +kernel)
  have c1 : Calls exC (runOps exCfg eqOps) (answers [5] .nil) "?" "t" "e" 1 (w2 [9]) (some ⟨0, "x", w2 [8], 1⟩) .error
      (w2 [9]) :=
    .cut (m := 0) (a := ⟨"x", "t", "a", "10.0.0.1", 0⟩) (uid := [8]) (w2 := w2 [8]) (s2 [9]) (v0 1)
      (by decide +kernel) (by decide) (l2 [9]) rfl (ask [8]) c0
  have c2 : Calls exC (runOps exCfg eqOps) (answers [5] .nil) "?" "t" "e" 0 exW (some ⟨0, "x", w2 [8], 2⟩) .nil
      { w1 with res := some (newMessage [9]) } :=
    .answer (m := 1) (a := ⟨"z", "t", "aa", "10.0.0.1", 1⟩) (uid := [9]) (w1 := w1) (w2 := w2 [9]) (w3 := w2 [9])
      (rs := ⟨some (newMessage [9])⟩) rfl (v1 0) (by decide +kernel) (by decide) l1 rfl (ask [9]) c1 (by simp)
      (sendRes_of (res_len _ (by decide +kernel)))
  exact ⟨_, _, eq_consistent, c2, rfl, [9], rfl⟩

/-- The hypotheses of the theorems on C100 hold: a call from node 0 to "z" that is answered with [5], the same call
from node 1, and the actor depends on the request only. -/
example : Consistent exC exBook ∧ Plain "z" ∧ Hosts exC 1 "z" "t" ∧
    ∃ got w', Calls exC exBook (answers [5] .nil) "z" "t" "e" 0 exW (some ⟨1, "z", got, 1⟩) .nil w' ∧
      body w'.res = some [5] := by
  refine ⟨exC_consistent, exPlain, exHosts, ?_⟩
  obtain ⟨got, w', h, hg⟩ := ex_remote (answers [5] .nil) fun got hg => ⟨by simp [answers], by
    simp only [answers, hg]; decide +kernel⟩
  refine ⟨got, w', h, ?_⟩
  rw [((C100_response_partial h (by rintro x hx; cases hx; exact Nat.one_ne_zero)).2.2 _ rfl rfl rfl).1]
  simp only [answers, hg]
  rfl

/-- An actor that answers with the body of the request depends on the request only. -/
example : OnRequest fun _ _ w => (⟨w.req, some { body := (w.req.map (·.body)).getD [] }, false⟩, .nil) := by
  intro n id w w' target ty ev m m1 m2 h1 h2 a1 a2
  simp [body, h1, h2, a1.body, a2.body]

end Braid.Payload
