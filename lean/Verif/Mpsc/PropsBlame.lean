import Verif.Mpsc.Blame
import Verif.Mpsc.Props

/-! C04, continued: the one `Push` that makes `Pop` return nil on a queue that is not empty. -/

namespace Braid.Mpsc
variable {V : Type}

/-- **C04**, exactly: when `Pop` returns nil, either everything in the queue has been popped, or a single `Push` is to
blame: that of the next value, which has not returned, and which is one step of its goroutine away from being popped. -/
theorem C04_blame {h : List (Ev V)} {s s' : St V} {a : Act V} {evs : List (Ev V)}
    (hr : (sys V).Run h s) (hs : (sys V).step s a = some (s', evs)) (hnil : Ev.popRet none ∈ evs) :
    ∃ order, Explains order h ∧ (popped h = order ∨
      ∃ q b y rest, order = popped h ++ (b, y) :: rest ∧ Ev.pushInv q b y ∈ h ∧ Ev.pushRet b ∉ h ∧
        ∃ s2, (sys V).exec s' [.prod q, .pop, .cons, .cons, .cons, .cons] =
          some (s2, [.popInv, .popRet (some (b, y))])) := by
  obtain ⟨order, k, pend, A, B, C⟩ := run_inv hr
  obtain ⟨hc, hn, rfl⟩ := nil_step A hs hnil
  have hpops := B.pops
  rw [hc] at hpops
  simp only [CPc.inflight, List.append_nil] at hpops
  refine ⟨order, ⟨?_, B.called, B.complete, B.realTime, B.program, ?_⟩, ?_⟩
  · have := A.nodup; rw [chain, List.nodup_cons] at this; exact this.2
  · rw [hpops]; exact List.take_prefix _ _
  cases hd : order.drop k with
  | nil =>
    left
    rw [hpops, List.take_of_length_le (List.drop_eq_nil_iff.1 hd)]
  | cons e r =>
    right
    have he : order[k]? = some e := by
      have : (order.drop k)[0]? = some e := by rw [hd]; rfl
      simpa using this
    have h2 : (chain order)[k+1]? = some e.1 := by rw [chain_get_succ, he]; rfl
    obtain ⟨q, hq⟩ := A.missing k _ _ A.tailk h2 hn
    have hqid : (s.prods q).id? = some e.1 := by rw [hq]; rfl
    obtain ⟨y, hy⟩ := B.allocInv q _ hqid
    obtain ⟨q', hq'⟩ := B.called e.1 e.2 (List.mem_of_getElem? he)
    obtain ⟨rfl, rfl⟩ := B.uniq q q' e.1 y e.2 hy hq'
    have hne : e.1 ≠ s.tail := by
      intro e1
      rw [e1] at h2
      have := nodup_idx A.nodup h2 A.tailk
      omega
    have hv := A.vals k e (Nat.le_refl _) he
    refine ⟨q, e.1, e.2, r, ?_, hq', B.retd q _ hqid, ?_⟩
    · have := List.take_append_drop k order
      rw [hd] at this
      rw [hpops]; exact this.symm
    · simp [Lts.exec, sys, step, stepProd, stepCons, hq, upd_apply, hne, hv]

/-- The case of `C04_nil_means_drained_refuted`: the `Push` of 10 is to blame. -/
example : ∃ s, (sys Nat).Run [.pushInv 0 1 10, .pushInv 1 2 20, .pushRet 2, .popInv] s ∧
    ∃ s', (sys Nat).step s .cons = some (s', [.popRet none]) ∧
    ∃ s2, (sys Nat).exec s' [.prod 0, .pop, .cons, .cons, .cons, .cons] =
      some (s2, [.popInv, .popRet (some (1, 10))]) :=
  ⟨_, Lts.run_of_exec (as := [.push 0 10, .prod 0, .push 1 20, .prod 1, .prod 1, .prod 1, .prod 1,
      .pop]) rfl, _, rfl, _, rfl⟩

end Braid.Mpsc
