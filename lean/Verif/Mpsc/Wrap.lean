import Verif.Mpsc.Keep

/-
The queue with its 32-bit count (C134): model, specification and helper lemmas. `Verif.Mpsc.Model` counts with integers.
-/
namespace Braid.Mpsc
variable {V : Type}

/-! ### Model -/

/-- The `int32` that `atomic.AddInt32` stores for a sum. (lib/mpsc/mpsc.go:81) -/
def i32 (x : Int) : Int := (x + 2 ^ 31) % 2 ^ 32 - 2 ^ 31

/-- `stepProd` with `count int32`. (lib/mpsc/mpsc.go:43-48, 80-88) -/
def stepProd32 (s : St V) (p : Nat) : Option (St V × List (Ev V)) :=
  match s.prods p with
  | .count n => -- L81 count := atomic.AddInt32(&q.count, 1)
    some ({ s with count := i32 (s.count + 1), prods := upd s.prods p (.send n (i32 (s.count + 1))) }, [])
  | _ => stepProd s p

/-- `stepCons` with `count int32`. (lib/mpsc/mpsc.go:54-65, 80-88) -/
def stepCons32 (s : St V) : Option (St V × List (Ev V)) :=
  match s.cons with
  | .dec n v => -- L61, L81 count := atomic.AddInt32(&q.count, -1)
    some ({ s with count := i32 (s.count - 1), cons := .send n v (i32 (s.count - 1)) }, [])
  | _ => stepCons s

/-- `step` with `count int32`. (lib/mpsc/mpsc.go:39-88) -/
def step32 (s : St V) : Act V → Option (St V × List (Ev V))
  | .prod p => stepProd32 s p
  | .cons => stepCons32 s
  | a => step s a

/-- The system with `count int32`. (lib/mpsc/mpsc.go:18-34) -/
def sys32 (V : Type) : Lts (St V) (Act V) (Ev V) := ⟨init V, step32⟩

/-! ### Specification -/

/-- The numbers of the calls of `Push` that have returned. -/
def rets : List (Ev V) → List Nat
  | [] => []
  | .pushRet id :: h => id :: rets h
  | _ :: h => rets h

/-- The calls of `Push` that have not returned. -/
def running (h : List (Ev V)) : List Nat := (calls h).filter fun id => id ∉ rets h

/-- At no time do 2^31 values wait, nor do more than 2^31 calls of `Push` run at once. -/
def Small (h : List (Ev V)) : Prop :=
  ∀ h', h' <+: h → (waiting h').length < 2 ^ 31 ∧ (running h').length ≤ 2 ^ 31

/-! ### Helper lemmas -/

theorem i32_id {x : Int} (h1 : -2 ^ 31 ≤ x) (h2 : x < 2 ^ 31) : i32 x = x := by
  unfold i32
  omega

theorem mem_rets {h : List (Ev V)} {id : Nat} : id ∈ rets h ↔ Ev.pushRet id ∈ h := by
  induction h with
  | nil => simp [rets]
  | cons e h ih => cases e <;> simp [rets, ih]

theorem map_nodup {α β : Type} (f : α → β) : ∀ (l : List α), l.Nodup → (∀ a ∈ l, ∀ b ∈ l, f a = f b → a = b) →
    (l.map f).Nodup
  | [], _, _ => by simp
  | a :: l, hd, hf => by
    rw [List.nodup_cons] at hd
    rw [List.map_cons, List.nodup_cons]
    refine ⟨fun hm => ?_, map_nodup f l hd.2 fun x hx y hy => hf x (by simp [hx]) y (by simp [hy])⟩
    obtain ⟨b, h1, h2⟩ := List.mem_map.1 hm
    rw [hf a (by simp) b (by simp [h1]) h2.symm] at hd
    exact hd.1 h1

/-- Between which numbers the count lies. -/
theorem count_bounds {h : List (Ev V)} {s : St V} (hr : (sys V).Run h s) :
    s.count ≤ (waiting h).length ∧ (∀ p n, s.prods p = .count n → s.count + 1 ≤ (waiting h).length) ∧
      -(running h).length ≤ s.count - s.cons.pendDec := by
  obtain ⟨order, k, pend, A, B, C⟩ := run_inv hr
  have hk : k ≤ order.length := by
    have := (List.getElem?_eq_some_iff.1 A.tailk).1
    rw [chain_length] at this
    omega
  have hcnt := C.cnt
  have main : s.count + pend.length ≤ (waiting h).length := by
    have hnd : (order.map Prod.fst).Nodup := (List.nodup_cons.1 A.nodup).2
    have hsplit : order = popped h ++ (s.cons.inflight ++ order.drop k) := by
      rw [← List.append_assoc, B.pops, List.take_append_drop]
    have hle : ((s.cons.inflight ++ order.drop k).map Prod.fst).length ≤ (waiting h).length := by
      rw [hsplit, List.map_append] at hnd
      obtain ⟨_, h2, h3⟩ := List.nodup_append.1 hnd
      refine (List.subperm_of_subset h2 ?_).length_le
      intro a ha
      obtain ⟨e, h4, rfl⟩ := List.mem_map.1 ha
      have hm : e ∈ order := by rw [hsplit]; exact List.mem_append.2 (.inr h4)
      obtain ⟨q, hq⟩ := B.called e.1 e.2 hm
      refine List.mem_filter.2 ⟨mem_calls.2 ⟨q, _, hq⟩, ?_⟩
      simp only [decide_eq_true_eq]
      intro h5
      exact h3 _ h5 _ ha rfl
    simp only [List.length_map, List.length_append, List.length_drop] at hle
    have hinf : s.cons.pendDec ≤ s.cons.inflight.length := by
      cases hc : s.cons with
      | dec m v =>
        have := A.inflightSome.1 m v hc
        cases v with
        | none => exact absurd rfl this
        | some x => simp [CPc.pendDec, CPc.inflight]
      | _ => simp [CPc.pendDec]
    omega
  refine ⟨by omega, fun p n hp => ?_, ?_⟩
  · have : p ∈ pend := (C.mem p).2 (by rw [hp]; exact trivial)
    have := List.length_pos_of_mem this
    omega
  · have hle : pend.length ≤ (running h).length := by
      have key : ∀ p ∈ pend, ∃ n, (s.prods p).id? = some n := by
        intro p hp
        have := (C.mem p).1 hp
        cases hq : s.prods p <;> rw [hq] at this <;> simp [PPc.uncounted, PPc.id?] at this ⊢
      have hnd : (pend.map fun p => (s.prods p).id?.getD 0).Nodup := by
        refine map_nodup _ _ C.nodup fun a ha b hb hab => ?_
        obtain ⟨n, hn⟩ := key a ha
        obtain ⟨m, hm⟩ := key b hb
        simp only [hn, hm, Option.getD_some] at hab
        subst hab
        exact A.inj a b n hn hm
      have := (List.subperm_of_subset hnd (l₂ := running h) ?_).length_le
      · simpa using this
      · intro a ha
        obtain ⟨p, hp, rfl⟩ := List.mem_map.1 ha
        obtain ⟨n, hn⟩ := key p hp
        simp only [hn, Option.getD_some]
        obtain ⟨x, hx⟩ := B.allocInv p n hn
        refine List.mem_filter.2 ⟨mem_calls.2 ⟨p, x, hx⟩, ?_⟩
        simp only [decide_eq_true_eq, mem_rets]
        exact B.retd p n hn
    omega

/-- As long as the numbers are small, 32 bits make no difference. -/
theorem small_step {h : List (Ev V)} {s : St V} (hr : (sys V).Run h s) (h1 : (waiting h).length < 2 ^ 31)
    (h2 : (running h).length ≤ 2 ^ 31) (a : Act V) : step32 s a = step s a := by
  obtain ⟨b0, b1, b2⟩ := count_bounds hr
  cases a with
  | prod p =>
    simp only [step32, step]
    unfold stepProd32
    split
    · rename_i n hp
      have h3 := b1 p n hp
      have h4 : s.cons.pendDec ≥ 0 := by cases s.cons <;> simp [CPc.pendDec]
      rw [i32_id (by omega) (by omega)]
      simp [stepProd, hp]
    · rfl
  | cons =>
    simp only [step32, step]
    unfold stepCons32
    split
    · rename_i n v hc
      rw [hc] at b2
      simp only [CPc.pendDec] at b2
      rw [i32_id (by omega) (by omega)]
      simp [stepCons, hc]
    · rfl
  | _ => rfl

theorem small_run {h : List (Ev V)} {s : St V} (hr : (sys32 V).Run h s) : Small h → (sys V).Run h s := by
  refine Lts.Run.invariant (M := sys32 V) (P := fun h s => Small h → (sys V).Run h s) ?_ ?_ hr
  · exact fun _ => .init
  · intro h s a s' evs _ hi hs hsm
    have hsm' : Small h := fun h' hp => hsm h' (hp.trans (List.prefix_append _ _))
    have hr := hi hsm'
    obtain ⟨h1, h2⟩ := hsm' h (List.prefix_refl h)
    refine .step (a := a) hr ?_
    change step32 s a = _ at hs
    rw [small_step hr h1 h2] at hs
    exact hs

/-! A burst: `n` calls of `Push` of one producer, one after the other, before the consumer takes anything. -/

/-- The `n`-th call of `Push`, to its end. -/
def burstEvs (x : V) (n : Nat) : List (Ev V) := [.pushInv 0 (n + 1) x, .pushRet (n + 1)]

structure Burst (x : V) (n : Nat) (s : St V) : Prop where
  fresh : s.fresh = n + 1
  head : s.head = n
  tail : s.tail = 0
  next : ∀ i, i < n → (s.heap i).next = some (i + 1)
  first : 0 < n → (s.heap 1).val = some x
  prods : ∀ p, s.prods p = .idle
  cons : s.cons = .idle
  count : s.count = i32 n
  tok : s.tok = if n = 0 then none else some 1

theorem burst_exec {n : Nat} {s : St V} {x : V} (hb : Burst x n s) :
    ∃ s', (sys32 V).exec s [.push 0 x, .prod 0, .prod 0, .prod 0, .prod 0] = some (s', burstEvs x n) ∧ Burst x (n + 1) s' := by
  obtain ⟨h1, h2, h3, h4, hx, h5, h6, h7, h8⟩ := hb
  have hi : i32 (i32 n + 1) = i32 ((n + 1 : Nat) : Int) := by unfold i32; omega
  refine ⟨?_, ?_, ?_⟩
  rotate_left
  · simp [Lts.exec, sys32, step32, step, stepProd32, stepProd, h5, h1, burstEvs]
    rfl
  · constructor <;> dsimp only
    · exact h3
    · intro i hi'
      rw [h2]
      by_cases e : i = n
      · subst e; simp
      · rw [upd_of_ne _ _ e, upd_of_ne _ _ (by omega)]
        exact h4 i (by omega)
    · intro _
      rw [h2]
      have key : ∀ (f : Nat → Node V) y, (upd f n { f n with next := y } 1).val = (f 1).val := by
        intro f y; rw [upd_apply]; split <;> simp_all
      rw [key, upd_apply]
      split
      · rfl
      · exact hx (by omega)
    · intro p
      by_cases e : p = 0
      · subst e; simp
      · simp [upd_of_ne _ _ e, h5]
    · exact h6
    · rw [h7, hi]
    · rw [h7, hi, h8]
      by_cases e : n = 0
      · subst e; rfl
      · simp only [e, if_false, signal]
        split <;> simp

theorem burst_run (x : V) : ∀ n, ∃ s, (sys32 V).Run ((List.range n).flatMap (burstEvs x)) s ∧ Burst x n s
  | 0 => ⟨init V, .init, by constructor <;> simp [init, i32]⟩
  | n + 1 => by
    obtain ⟨s, h1, h2⟩ := burst_run x n
    obtain ⟨s', h3, h4⟩ := burst_exec h2
    refine ⟨s', ?_, h4⟩
    rw [List.range_succ, List.flatMap_append, List.flatMap_singleton]
    exact h1.exec h3

/-- One round of the consumer after a burst. -/
theorem burst_round {n : Nat} {s : St V} {x : V} (hb : Burst x (n + 1) s) :
    ∃ s', (sys32 V).exec s [.recv, .pop, .cons, .cons, .cons, .cons] = some (s', [.popInv, .popRet (some (1, x))]) ∧
      s'.cons = .idle ∧ s'.count = i32 n ∧ (s'.tok ≠ none ↔ 0 < i32 n) ∧ ∀ p, s'.prods p = .idle := by
  obtain ⟨h1, h2, h3, h4, hx, h5, h6, h7, h8⟩ := hb
  have hi : i32 (i32 ((n + 1 : Nat) : Int) - 1) = i32 n := by unfold i32; omega
  have h40 := h4 0 (by omega)
  have hx := hx (by omega)
  refine ⟨?_, ?_, ?_⟩
  rotate_left
  · simp [Lts.exec, sys32, step32, step, stepCons32, stepCons, h6, h8, h3, h40, hx]
    rfl
  · refine ⟨rfl, ?_, ?_, h5⟩
    · dsimp only; rw [h7, hi]
    · dsimp only
      rw [h7, hi]
      unfold signal
      split <;> simp_all

end Braid.Mpsc
