import Verif.Grpc.Calls

/-
C51–C53: the gRPC client.
-/
namespace Braid.Grpc
open Spec
variable {max : Nat}

/-! ### C51: slots -/

/-- C51, bound: at no time do more than `max` calls hold a slot, and none holds two. -/
theorem C51_bounded {h : List Ev} {s : State} (hr : (sys max).Run h s) :
    (holders h).length ≤ max ∧ (holders h).Nodup :=
  ⟨by rw [(invS_run hr).len]; exact (invS_run hr).cap, (invS_run hr).nodup⟩

/-- C51, discipline: every goroutine behaves as `Spec.allowed` says: a `Call` sends only while it holds a slot, it
gives back the one slot it acquired before it ends, whatever the result, and one that got no slot gives none back
and sends nothing. -/
theorem C51_discipline {h : List Ev} {s : State} (hr : (sys max).Run h s) (g : Nat) : phase g h ≠ none := by
  rw [phase_run hr g]; simp

/-- C51, no leak: a call that waits for a slot gets one if fewer than `max` calls hold one. -/
theorem C51_no_leak {h : List Ev} {s : State} (hr : (sys max).Run h s) {g : Nat} (hg : phase g h = some .waiting) :
    (∃ s', step max s (.go g true) = some (s', [.acquired g])) ↔ (holders h).length < max := by
  rw [phase_run hr g] at hg
  rw [(invS_run hr).len]
  cases hp : s.pc g with
  | cSlot a b =>
    simp only [step, hp]
    by_cases hw : s.workers < max
    · simp [hw]
    · simp [hw]
  | _ => simp [hp, Pc.phase] at hg

/-- C51, progress: a call that holds a slot is never stuck in the client; it gives the slot back within four steps
of its own, whatever the network answers. -/
theorem C51_gives_back {h : List Ev} {s : State} (hr : (sys max).Run h s) {g : Nat} (hg : g ∈ holders h)
    (ok : Bool) : ∃ n s' k, n ≤ 4 ∧ (sys max).exec s (List.replicate n (.go g ok)) = some (s', k) ∧
      .freed g ∈ k := by
  have hi := invS_run hr
  have hw : 0 < s.workers := by rw [← hi.len]; exact List.length_pos_of_mem hg
  have hp := (hi.mem g).1 hg
  have free : ∀ (s : State) r, 0 < s.workers → s.pc g = .cFree r →
      ∃ s' k, (sys max).exec s (List.replicate 1 (.go g ok)) = some (s', k) ∧ .freed g ∈ k := by
    intro s r hw hp
    exact ⟨{ s with workers := s.workers - 1, pc := upd s.pc g .idle }, _, by simp [Lts.exec, sys, step, hp, hw]; rfl, by simp⟩
  have cons : ∀ (s : State) n p e1, step max s (.go g ok) = some ({ s with pc := upd s.pc g p }, e1) →
      (∃ s' k, (sys max).exec { s with pc := upd s.pc g p } (List.replicate n (.go g ok)) = some (s', k) ∧ .freed g ∈ k) →
      ∃ s' k, (sys max).exec s (List.replicate (n + 1) (.go g ok)) = some (s', k) ∧ .freed g ∈ k := by
    rintro s n p e1 h1 ⟨s', k, h2, h3⟩
    exact ⟨s', e1 ++ k, by rw [List.replicate_succ]; exact Lts.exec_cons (M := sys max) h1 h2, List.mem_append_right _ h3⟩
  have invoke : ∀ (s : State) a c, 0 < s.workers → s.pc g = .cInvoke a c →
      ∃ s' k, (sys max).exec s (List.replicate 2 (.go g ok)) = some (s', k) ∧ .freed g ∈ k := by
    intro s a c hw hp
    exact cons s 1 (.cFree (if ok then .ok else .invoke)) _ (by simp only [step, hp]; rfl)
      (free { s with pc := _ } _ hw (upd_same _ _ _))
  have opts : ∀ (s : State) a c b, 0 < s.workers → s.pc g = .cOpts a c b →
      ∃ n s' k, n ≤ 3 ∧ (sys max).exec s (List.replicate n (.go g ok)) = some (s', k) ∧ .freed g ∈ k := by
    intro s a c b hw hp
    cases b with
    | true =>
      obtain ⟨s', k, h1, h2⟩ := cons s 2 (.cInvoke a c) _ (by simp only [step, hp]; rfl)
        (invoke { s with pc := _ } _ _ hw (upd_same _ _ _))
      exact ⟨3, s', k, by omega, h1, h2⟩
    | false =>
      obtain ⟨s', k, h1, h2⟩ := cons s 1 (.cFree .badOption) _ (by simp only [step, hp]; rfl)
        (free { s with pc := _ } _ hw (upd_same _ _ _))
      exact ⟨2, s', k, by omega, h1, h2⟩
  cases hpc : s.pc g with
  | cFree r => obtain ⟨s', k, h1, h2⟩ := free s r hw hpc; exact ⟨1, s', k, by omega, h1, h2⟩
  | cInvoke a c => obtain ⟨s', k, h1, h2⟩ := invoke s a c hw hpc; exact ⟨2, s', k, by omega, h1, h2⟩
  | cOpts a c b => obtain ⟨n, s', k, h0, h1, h2⟩ := opts s a c b hw hpc; exact ⟨n, s', k, by omega, h1, h2⟩
  | cConn a b =>
    cases hm : s.connmap a with
    | none =>
      obtain ⟨s', k, h1, h2⟩ := cons s 1 (.cFree .noConn) _ (by simp only [step, hpc, hm]; rfl)
        (free { s with pc := _ } _ hw (upd_same _ _ _))
      exact ⟨2, s', k, by omega, h1, h2⟩
    | some c =>
      obtain ⟨n, s', k, h0, h1, h2⟩ := opts { s with pc := upd s.pc g (.cOpts a c b) } a c b hw (upd_same _ _ _)
      obtain ⟨s'', k', h1', h2'⟩ := cons s n _ [] (by simp only [step, hpc, hm]) ⟨s', k, h1, h2⟩
      exact ⟨n + 1, s'', k', by omega, h1', h2'⟩
  | _ => simp [hpc, Pc.holds] at hp

/-- The example: two slots, three callers; one of them gives up waiting. -/
def exActs : List Act :=
  [.start 0 (.callWait "a"), .go 0 true, .go 0 true, .go 0 true, .go 0 true,
    .start 1 (.call "a" true), .start 2 (.call "b" true), .start 3 (.call "a" true), .go 1 true, .go 2 true, .ctx 3,
    .go 1 true, .start 3 (.call "a" true), .go 1 true, .go 1 false, .go 2 true]

example : ∃ h s, (sys 2).exec (sys 2).init exActs = some (s, h) ∧ holders h = [2, 1] ∧ phase 3 h = some .waiting ∧
    .finish 3 .noSlot ∈ h ∧ .sent 1 "a" 0 false ∈ h :=
  ⟨_, _, rfl, by decide, by decide, by decide, by decide⟩

/-! ### C52: sending to another node -/

/-- C52 fails in general: if no Call was ever made to the address of a node, then no Send to it reaches it. -/
theorem C52_never_dialed {h : List Ev} {s : State} (hr : (sys max).Run h s) {a : String}
    (hn : ∀ g, .begin g (.callWait a) ∉ h) : ∀ g c ok, .sent g a c ok ∉ h := by
  intro g c ok hs
  have hc := ((invC_run hr).sent g a c ok hs).1
  obtain ⟨e, he, hec⟩ := List.mem_filterMap.1 hc
  cases e with
  | opened g' a' c' =>
    simp only at hec
    split at hec
    · rename_i ha; subst ha
      exact hn g' (opened_by hr he)
    · cases hec
  | _ => cases hec

/-- C52 fails: in the initial state (no call was made yet) a Call to a node that answers reaches it, while every
Send to the same node fails, whatever else Sends do. -/
theorem C52_refuted (hmax : 0 < max) (a : String) :
    (∃ as s' k, (sys max).exec (sys max).init (.start 0 (.callWait a) :: as) = some (s', k) ∧ .sent 0 a 0 true ∈ k) ∧
    (∃ as s' k, (sys max).exec (sys max).init (.start 0 (.call a true) :: as) = some (s', k) ∧
      .finish 0 .noConn ∈ k) ∧
    ∀ h s, (sys max).Run h s → (∀ g, .begin g (.callWait a) ∉ h) → ∀ g c ok, .sent g a c ok ∉ h := by
  refine ⟨⟨[.go 0 true, .go 0 true, .go 0 true, .go 0 true], _, _, rfl, ?_⟩, ⟨[.go 0 true, .go 0 true, .go 0 true], ?_⟩,
    fun h s hr hn => C52_never_dialed hr hn⟩
  · simp [sys, init]
  · cases max with
    | zero => cases hmax
    | succ n => exact ⟨_, _, rfl, by simp⟩

/-- C52, the part that holds: once anything was sent to the address, every Send that has a slot and proper options
goes out to it, on a connection to that address. -/
theorem C52_after_call_partial {h : List Ev} {s : State} (hr : (sys max).Run h s) {a : String} {g0 c0 : Nat} {b0 : Bool}
    (hs : .sent g0 a c0 b0 ∈ h) {g : Nat} (hg : s.pc g = .cConn a true) (ok : Bool) :
    ∃ s' c, (sys max).exec s [.go g ok, .go g ok, .go g ok] = some (s', [.sent g a c ok]) ∧ c ∈ openedTo a h := by
  have hi := invC_run hr
  cases hm : s.connmap a with
  | none => exact absurd hm (hi.sent _ _ _ _ hs).2
  | some c =>
    have h1 : (sys max).step s (.go g ok) = some ({ s with pc := upd s.pc g (.cOpts a c true) }, []) := by
      simp [sys, step, hg, hm]
    have h2 : (sys max).step { s with pc := upd s.pc g (.cOpts a c true) } (.go g ok)
        = some ({ s with pc := upd (upd s.pc g (.cOpts a c true)) g (.cInvoke a c) }, []) := by
      simp [sys, step]
    have h3 : (sys max).step { s with pc := upd (upd s.pc g (.cOpts a c true)) g (.cInvoke a c) } (.go g ok)
        = some ({ s with pc := upd (upd (upd s.pc g (.cOpts a c true)) g (.cInvoke a c)) g (.cFree (if ok then .ok else .invoke)) }, [.sent g a c ok]) := by
      simp [sys, step]
    exact ⟨_, c, Lts.exec_cons (M := sys max) h1 (Lts.exec_cons (M := sys max) h2
      (Lts.exec_cons (M := sys max) h3 rfl)), hi.map a c hm⟩

example : ∃ h s, (sys 1).Run h s ∧ .sent 0 "a" 0 true ∈ h ∧ s.pc 1 = .cConn "a" true :=
  ⟨_, _, Lts.run_of_exec (M := sys 1) (as := [.start 0 (.callWait "a"), .go 0 true, .go 0 true, .go 0 true, .go 0 true,
    .start 1 (.call "a" true), .go 1 true]) rfl, by decide, by decide⟩

/-- C52, the part that holds: a Send that is called after anything was sent to the address does not fail for lack of a
connection. -/
theorem C52_after_use_partial {h1 h2 h3 : List Ev} {s : State} {g : Nat} {a : String} {r : Res}
    (hr : (sys max).Run (h1 ++ .begin g (.call a true) :: h2 ++ .finish g r :: h3) s) (hw : Within g h2) (hu : Used a h1) :
    r = .noSlot ∨ r = .ok ∨ r = .invoke := by
  obtain ⟨h0, s0, act, s1, pre, post, -, -, hr0, hs, hh, -⟩ := hr.split_at rfl
  have hpc : s0.pc g ≠ .idle := by
    rcases finish_cases hs with ⟨_, _, h, -⟩ | ⟨h, -⟩ | ⟨_, h, -⟩ | ⟨_, _, _, h, -⟩ <;> rw [h] <;> simp
  obtain ⟨k1, o, k2, e1, e2, e3⟩ := cinv_run hr0 g hpc
  have hpre : Within g pre := by
    rcases finish_cases hs with ⟨_, _, _, h, -⟩ | ⟨_, h⟩ | ⟨_, _, h, -⟩ | ⟨_, _, _, _, h, -⟩ <;> rw [h] <;> simp [Within]
  rw [e1, List.append_assoc, List.cons_append] at hh
  obtain ⟨rfl, rfl, -⟩ := begin_unique hh hw (within_append e2 hpre)
  rcases finish_cases hs with ⟨_, _, h, -, rfl⟩ | ⟨h, -⟩ | ⟨_, h, -⟩ | ⟨_, _, _, h, -⟩
  · exact .inl rfl
  · rw [h] at e3
    obtain ⟨-, a', b', ho, h | h | ⟨c, ok, -, -, h⟩⟩ := e3
    · cases ho; exact absurd hu h.2.2
    · cases ho; exact absurd h.2.1 (by simp)
    · rw [h]
      cases ok <;> simp
  · rw [h] at e3; exact absurd e3.1 (by simp)
  · rw [h] at e3; exact absurd e3.1 (by simp)

/-! ### C103: results -/

/-- C103: a call sends its request at most once, to its own address, and its result tells what happened: nil if it was
answered, a failed invocation if it was sent and not answered, any other error if nothing was sent. -/
theorem C103_result {h1 h2 h3 : List Ev} {s : State} {g : Nat} {o : Op} {r : Res}
    (hr : (sys max).Run (h1 ++ .begin g o :: h2 ++ .finish g r :: h3) s) (hw : Within g h2) : Result o r (sends g h2) := by
  obtain ⟨h0, s0, act, s1, pre, post, -, -, hr0, hs, hh, -⟩ := hr.split_at rfl
  have hpc : s0.pc g ≠ .idle := by
    rcases finish_cases hs with ⟨_, _, h, -⟩ | ⟨h, -⟩ | ⟨_, h, -⟩ | ⟨_, _, _, h, -⟩ <;> rw [h] <;> simp
  obtain ⟨k1, o', k2, e1, e2, e3⟩ := cinv_run hr0 g hpc
  have hpre : Within g pre := by
    rcases finish_cases hs with ⟨_, _, _, h, -⟩ | ⟨_, h⟩ | ⟨_, _, h, -⟩ | ⟨_, _, _, _, h, -⟩ <;> rw [h] <;> simp [Within]
  rw [e1, List.append_assoc, List.cons_append] at hh
  obtain ⟨rfl, rfl, rfl⟩ := begin_unique hh hw (within_append e2 hpre)
  rw [sends_append]
  rcases finish_cases hs with ⟨_, _, h, rfl, rfl⟩ | ⟨h, rfl⟩ | ⟨_, h, rfl, rfl⟩ | ⟨_, _, ok, h, rfl, rfl⟩ <;> rw [h] at e3
  · exact ⟨by simp [e3.2.1, sends_nil], _, _, e3.1⟩
  · obtain ⟨-, a', b', ho, ⟨rfl, hk, -⟩ | ⟨rfl, rfl, hk⟩ | ⟨c, ok, hk, -, rfl⟩⟩ := e3
    · exact ⟨by rw [hk]; rfl, _, _, ho⟩
    · exact ⟨by rw [hk]; rfl, _, ho⟩
    · rw [hk, ho]
      cases ok <;> exact ⟨c, rfl⟩
  · exact ⟨by simp [e3.2.1, sends_nil], _, e3.1⟩
  · rw [e3.2.1, sends_sent, e3.1]
    cases ok <;> exact ⟨_, rfl⟩

/-- C103: also a call that has not returned yet has sent at most one request, to its own address. -/
theorem C103_at_most_once {h1 h2 : List Ev} {s : State} {g : Nat} {o : Op}
    (hr : (sys max).Run (h1 ++ .begin g o :: h2) s) (hw : Within g h2) :
    sends g h2 = [] ∨ ∃ c ok, sends g h2 = [(target o, c, ok)] := by
  obtain ⟨k1, o', k2, e1, e2, e3⟩ := cinv_run hr g (not_idle hr rfl hw)
  obtain ⟨rfl, rfl, rfl⟩ := begin_unique e1 hw e2
  cases hp : s.pc g <;> rw [hp] at e3
  case idle => exact e3.elim
  case cFree r =>
    obtain ⟨-, a', b', rfl, ⟨rfl, h, -⟩ | ⟨rfl, rfl, h⟩ | ⟨c, ok, h, -, rfl⟩⟩ := e3
    · exact .inl h
    · exact .inl h
    · exact .inr ⟨c, ok, h⟩
  all_goals exact .inl e3.2.1

/-- A Send while a Call to the same address is in progress. -/
def exCalls : List Act :=
  [.start 0 (.callWait "a"), .start 1 (.call "a" true), .go 0 true, .go 0 true, .go 1 true, .go 0 true, .go 1 true, .go 0 false,
    .go 1 true, .go 1 true, .go 1 true]

def exCallsHist : List Ev :=
  [.begin 0 (.callWait "a"), .begin 1 (.call "a" true), .opened 0 "a" 0, .acquired 1, .sent 0 "a" 0 false, .finish 0 .invoke,
    .sent 1 "a" 0 true, .freed 1, .finish 1 .ok]

example : ∃ s, (sys 1).Run exCallsHist s ∧ Result (.call "a" true) .ok (sends 1 (exCallsHist.drop 2 |>.take 6)) :=
  ⟨_, Lts.run_of_exec (M := sys 1) (as := exCalls) rfl,
    C103_result (max := 1) (h1 := exCallsHist.take 1) (h3 := []) (g := 1)
      (Lts.run_of_exec (M := sys 1) (as := exCalls) rfl) (by simp [Within, exCallsHist])⟩

/-- A later Send finds a connection. -/
example : Res.ok = .noSlot ∨ Res.ok = .ok ∨ Res.ok = .invoke :=
  C52_after_use_partial (max := 1) (h1 := exCallsHist) (h2 := [.acquired 2, .sent 2 "a" 0 true, .freed 2]) (g := 2) (a := "a")
    (h3 := []) (Lts.run_of_exec (M := sys 1) (as := exCalls ++ [.start 2 (.call "a" true), .go 2 true, .go 2 true, .go 2 true,
      .go 2 true, .go 2 true]) rfl) (by simp [Within]) ⟨0, 0, false, by decide⟩

/-! ### C53: connections -/

/-- C53, for every interleaving: a `CallWait` that is called after anything was sent to the address opens no connection. -/
theorem C53_reused {h1 h2 : List Ev} {s : State} {g : Nat} {a : String}
    (hr : (sys max).Run (h1 ++ .begin g (.callWait a) :: h2) s) (hw : Within g h2) (hu : Used a h1) : opens g h2 = [] := by
  obtain ⟨k1, o', k2, e1, e2, e3⟩ := cinv_run hr g (not_idle hr rfl hw)
  obtain ⟨rfl, rfl, rfl⟩ := begin_unique e1 hw e2
  cases hp : s.pc g <;> rw [hp] at e3
  case idle => exact e3.elim
  case cFree r => exact e3.1
  case wDial a' => exact e3.2.2.1
  case wStore a' c =>
    obtain ⟨h, -, -, h'⟩ := e3
    cases h
    exact absurd hu h'
  case wInvoke a' c =>
    obtain ⟨h, -, h' | ⟨-, h'⟩⟩ := e3
    · exact h'
    · cases h
      exact absurd hu h'
  all_goals exact e3.2.2

/-- The second of two `CallWait`s, at its invocation. -/
example : opens 2 ([] : List Ev) = [] :=
  C53_reused (max := 1) (h1 := exCallsHist) (h2 := []) (g := 2) (a := "a")
    (Lts.run_of_exec (M := sys 1) (as := exCalls ++ [.start 2 (.callWait "a"), .go 2 true]) rfl) (by simp [Within])
    ⟨0, 0, false, by decide⟩

/-- C53 fails: two concurrent CallWaits to a new address open two connections, and the second replaces the first,
which is never closed. -/
theorem C53_concurrent_refuted : ∃ (h : List Ev) (s : State), (sys max).Run h s ∧ openedTo "a" h = [0, 1] ∧
    .sent 0 "a" 0 true ∈ h ∧ .sent 1 "a" 1 true ∈ h :=
  ⟨_, _, Lts.run_of_exec (M := sys max) (as := [.start 0 (.callWait "a"), .start 1 (.callWait "a"), .go 0 true, .go 1 true,
    .go 0 true, .go 1 true, .go 0 true, .go 1 true, .go 0 true, .go 1 true]) rfl, rfl, by simp [sys, init], by simp [sys, init]⟩

/-- C53, the part that holds: if CallWaits to an address do not overlap, at most one connection to it is opened, and
everything to it is sent on that one. -/
theorem C53_one_connection_partial {h : List Ev} {s : State} (hr : (sys max).Run h s) {a : String}
    (hn : NoOverlap a h) : (openedTo a h).length ≤ 1 ∧ ∀ g c ok, .sent g a c ok ∈ h → openedTo a h = [c] := by
  have hi := invO_run hr hn
  have h1 : ∀ c, c ∈ openedTo a h → openedTo a h = [c] := by
    intro c hc
    cases hm : s.connmap a with
    | none =>
      rcases hi.none hm with h | ⟨g, c', -, h⟩
      · rw [h] at hc; cases hc
      · rw [h] at hc ⊢; rw [List.mem_singleton.1 hc]
    | some c' =>
      have h := hi.some c' hm
      rw [h] at hc ⊢; rw [List.mem_singleton.1 hc]
  refine ⟨?_, fun g c ok hs => h1 c ((invC_run hr).sent g a c ok hs).1⟩
  cases ho : openedTo a h with
  | nil => simp
  | cons c l => have := h1 c (by rw [ho]; simp); rw [ho] at this; rw [this]; simp

/-- C53, for every interleaving: what is sent to an address goes out on a connection that was opened to it, and no
connection serves two addresses. -/
theorem C53_right_address {h : List Ev} {s : State} (hr : (sys max).Run h s) {a : String} {g c : Nat} {ok : Bool}
    (hs : .sent g a c ok ∈ h) : c ∈ openedTo a h ∧ ∀ a', c ∈ openedTo a' h → a' = a := by
  have h1 := ((invC_run hr).sent g a c ok hs).1
  exact ⟨h1, fun a' h2 => opened_inj hr h2 h1⟩

/-- The example: two `CallWait`s to one address one after the other, and one to another address in between. -/
example : ∃ h s, (sys 1).Run h s ∧ NoOverlap "a" h ∧ openedTo "a" h = [0] ∧ openedTo "b" h = [1] ∧
    .sent 2 "a" 0 true ∈ h := by
  refine ⟨_, _, Lts.run_of_exec (M := sys 1) (as := [.start 0 (.callWait "a"), .start 1 (.callWait "b"), .go 0 true,
    .go 1 true, .go 0 true, .go 1 true, .go 0 true, .go 0 true, .start 2 (.callWait "a"), .go 2 true, .go 2 true]) rfl, ?_,
    by decide, by decide, by decide⟩
  exact noOverlap_of_check (by decide)

end Braid.Grpc
