import Verif.Mpsc.Spec

/- Inductive invariant of the queue (helper lemmas for Verif/Mpsc/Props.lean). -/
namespace Braid.Mpsc
variable {V : Type}

/-- Addresses of the nodes in swap order, stub first. -/
def chain (order : List (Nat × V)) : List Nat := 0 :: order.map Prod.fst

def PPc.id? : PPc → Option Nat
  | .idle => none
  | .alloc n => some n
  | .link _ n => some n
  | .count n => some n
  | .send n _ => some n

/-- swapped but not yet counted -/
def PPc.uncounted : PPc → Prop
  | .link _ _ => True
  | .count _ => True
  | _ => False

/-- will still signal the consumer, or still has to count -/
def PPc.waker : PPc → Prop
  | .link _ _ => True
  | .count _ => True
  | .send _ c => c > 0
  | _ => False

def CPc.inflight : CPc V → List (Nat × V)
  | .dec n v => (v.map fun x => (n, x)).toList
  | .send n v _ => (v.map fun x => (n, x)).toList
  | _ => []

def CPc.pendDec : CPc V → Int
  | .dec _ _ => 1
  | _ => 0

def CPc.waker : CPc V → Prop
  | .idle => False
  | .send _ _ c => c > 0
  | _ => True

/-- Heap structure. -/
structure InvA (s : St V) (order : List (Nat × V)) (k : Nat) : Prop where
  lt : ∀ a ∈ chain order, a < s.fresh
  nodup : (chain order).Nodup
  last : (chain order)[order.length]? = some s.head
  tailk : (chain order)[k]? = some s.tail
  next : ∀ i a, (chain order)[i]? = some a → (s.heap a).next = none ∨
    ∃ b, (chain order)[i+1]? = some b ∧ (s.heap a).next = some b
  link : ∀ p a b, s.prods p = .link a b →
    ∃ i, (chain order)[i]? = some a ∧ (chain order)[i+1]? = some b ∧ (s.heap a).next = none
  missing : ∀ i a b, (chain order)[i]? = some a → (chain order)[i+1]? = some b →
    (s.heap a).next = none → ∃ p, s.prods p = .link a b
  alloc : ∀ p n, s.prods p = .alloc n → n < s.fresh ∧ n ∉ chain order ∧ (s.heap n).next = none
  inj : ∀ p q n, (s.prods p).id? = some n → (s.prods q).id? = some n → p = q
  idlt : ∀ p n, (s.prods p).id? = some n → n < s.fresh
  vals : ∀ i e, k ≤ i → order[i]? = some e → (s.heap e.1).val = some e.2
  take : ∀ n, s.cons = .take n → (chain order)[k+1]? = some n
  inflightSome : (∀ n v, s.cons = .dec n v → v ≠ none) ∧ (∀ n v c, s.cons = .send n v c → v ≠ none)

/-- Counting and wake-up. -/
structure InvC (s : St V) (order : List (Nat × V)) (k : Nat) (pend : List Nat) : Prop where
  nodup : pend.Nodup
  mem : ∀ p, p ∈ pend ↔ (s.prods p).uncounted
  cnt : s.count = (order.length : Int) - pend.length - k + s.cons.pendDec
  wake : s.count > 0 → s.tok ≠ none ∨ (∃ p, (s.prods p).waker) ∨ s.cons.waker

/-- History. -/
structure InvB (h : List (Ev V)) (s : St V) (order : List (Nat × V)) (k : Nat) : Prop where
  invs : ∀ p id x, Ev.pushInv p id x ∈ h → id < s.fresh ∧
    ((id, x) ∈ order ∨ (s.prods p = .alloc id ∧ (s.heap id).val = some x))
  allocInv : ∀ p n, (s.prods p).id? = some n → ∃ x, Ev.pushInv p n x ∈ h
  uniq : ∀ p q id x y, Ev.pushInv p id x ∈ h → Ev.pushInv q id y ∈ h → p = q ∧ x = y
  retd : ∀ p n, (s.prods p).id? = some n → Ev.pushRet n ∉ h
  done : ∀ p id x, Ev.pushInv p id x ∈ h → Ev.pushRet id ∈ h ∨ (s.prods p).id? = some id
  retlt : ∀ id, Ev.pushRet id ∈ h → id < s.fresh
  called : ∀ id x, (id, x) ∈ order → ∃ p, Ev.pushInv p id x ∈ h
  complete : ∀ id, Ev.pushRet id ∈ h → ∃ x, (id, x) ∈ order
  incr : ∀ p q a x b y, Before h (Ev.pushInv p a x) (Ev.pushInv q b y) → a < b
  realTime : ∀ a b q y, Before h (Ev.pushRet a) (Ev.pushInv q b y) → (b, y) ∈ order →
    ∃ x, Before order (a, x) (b, y)
  program : ∀ p a x b y, Before h (Ev.pushInv p a x) (Ev.pushInv p b y) → (b, y) ∈ order →
    Before order (a, x) (b, y)
  pops : popped h ++ s.cons.inflight = order.take k

def G (h : List (Ev V)) (s : St V) (order : List (Nat × V)) (k : Nat) (pend : List Nat) : Prop :=
  InvA s order k ∧ InvB h s order k ∧ InvC s order k pend

def Inv (h : List (Ev V)) (s : St V) : Prop :=
  ∃ order k pend, G h s order k pend

theorem popped_append (h h' : List (Ev V)) : popped (h ++ h') = popped h ++ popped h' := by
  induction h with
  | nil => rfl
  | cons e h ih =>
    cases e with
    | popRet r => cases r <;> simp [popped, ih]
    | _ => simpa [popped] using ih

theorem chain_get_succ (order : List (Nat × V)) (i : Nat) :
    (chain order)[i+1]? = (order[i]?).map Prod.fst := by
  simp [chain]

theorem chain_length (order : List (Nat × V)) : (chain order).length = order.length + 1 := by
  simp [chain]

theorem chain_append (order : List (Nat × V)) (e : Nat × V) :
    chain (order ++ [e]) = chain order ++ [e.1] := by simp [chain]

theorem mem_chain {order : List (Nat × V)} {e : Nat × V} (h : e ∈ order) : e.1 ∈ chain order := by
  simp only [chain, List.mem_cons, List.mem_map]; exact Or.inr ⟨e, h, rfl⟩

theorem nodup_idx {l : List Nat} (h : l.Nodup) {i j a : Nat} (hi : l[i]? = some a)
    (hj : l[j]? = some a) : i = j := by
  have hi' := List.getElem?_eq_some_iff.1 hi
  have hj' := List.getElem?_eq_some_iff.1 hj
  obtain ⟨hi1, hi2⟩ := hi'
  obtain ⟨hj1, hj2⟩ := hj'
  exact (List.getElem_inj h).1 (hi2.trans hj2.symm)

theorem signal_ne_none {t : Option Int} {c : Int} (h : c > 0) : signal t c ≠ none := by
  unfold signal; rw [if_pos h]; cases t <;> simp

theorem signal_keeps {t : Option Int} {c : Int} (h : t ≠ none) : signal t c ≠ none := by
  unfold signal; split
  · cases t <;> simp_all
  · exact h

theorem inv_init : Inv [] (init V) := by
  refine ⟨[], 0, [], ?_, ?_, ?_⟩
  · constructor <;> simp [init, chain, PPc.id?]
  · constructor <;> simp [init, PPc.id?, popped, CPc.inflight, before_nil]
  · constructor <;> simp [init, PPc.uncounted, CPc.pendDec]

end Braid.Mpsc
