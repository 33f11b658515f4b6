import Verif.Share.SepLemmas

/-
C111: what a call on a message builder changes, and which wrappers see it.
-/
namespace Braid.Share

/-- C111, a new wrapper: request and response are new messages with new headers, both with the given id
and nothing else set; no wrapper and no message had them before. Its waitgroup is that of the context, and
otherwise a new one. -/
theorem C111_fresh {h : List Ev} {s : State} (hr : sys.Run h s) {ctx : Option Nat} {uid : String}
    {s' : State} {evs : List Ev} (hs : sys.step s (.new ctx uid) = some (s', evs)) :
    look s' (s'.wr s.nw).req = (some { blank with id := uid }, []) ∧
    look s' (s'.wr s.nw).res = (some { blank with id := uid }, []) ∧
    (s'.wr s.nw).req ≠ (s'.wr s.nw).res ∧
    (∀ w, w < s.nw → ∀ b b', side s' w b ≠ side s' s.nw b') ∧
    (∀ m p, m < s.nm → (s'.cell m).hp = some p →
      (s'.cell (s'.wr s.nw).req).hp ≠ some p ∧ (s'.cell (s'.wr s.nw).res).hp ≠ some p) ∧
    (s'.cell (s'.wr s.nw).req).hp ≠ (s'.cell (s'.wr s.nw).res).hp ∧
    (∀ c, ctx = some c → (s'.wr s.nw).grp = c) ∧
    (ctx = none → ∀ w, w < s.nw → (s'.wr w).grp ≠ (s'.wr s.nw).grp) ∧
    (s'.wr s.nw).done = false ∧ s'.nw = s.nw + 1 := by
  have hw := wf_run hr
  simp only [sys, step] at hs
  split at hs
  · cases hs
    refine ⟨by simp [newWrapper, look, upd_apply], by simp [newWrapper, look],
      by simp [newWrapper], ?_, ?_, by simp [newWrapper, upd_apply], ?_, ?_, by simp [newWrapper], rfl⟩
    · intro w hlt b b'
      have h1 := hw.req_lt w hlt
      have h2 := hw.res_lt w hlt
      cases b <;> cases b' <;> simp [side, newWrapper, upd_apply, Nat.ne_of_lt hlt] <;> omega
    · intro m p hm hp
      have : (newWrapper s ctx uid).cell m = s.cell m := by
        simp only [newWrapper, upd_apply]; rw [if_neg (by omega), if_neg (by omega)]
      rw [this] at hp
      have := hw.hp_lt m hm p hp
      simp [newWrapper, upd_apply]
      omega
    · intro c hc; subst hc; simp [newWrapper]
    · intro hc w hlt
      subst hc
      have := hw.grp_lt w hlt
      simp [newWrapper, upd_apply, Nat.ne_of_lt hlt]; omega
  · cases hs

/-- C111, effect: a builder function, and a send, changes the message it is meant for as `written` says
(the body; the custom fields; event and target; all header fields but the timestamp, if there is a header
and one is given, else the header itself). It panics exactly if it needs a header and there is none. -/
theorem C111_effect {s : State} {a : Act} {s' : State} {evs : List Ev}
    (hs : sys.step s a = some (s', evs)) {w : Nat} {b : Bool} (ht : target a = some (w, b)) :
    look s' (side s w b) = written s.hdr a (look s (side s w b)) ∧
    (Ev.panicked ∈ evs ↔ needsHeader a = true ∧ (look s (side s w b)).1 = none) :=
  effect hs ht

/-- C111, pointers: `Req`, the waitgroup and `Done` of a wrapper never change, and `Res` only when the
reply to a remote call is stored in it or another response is taken over. -/
theorem C111_pointers {s : State} {a : Act} {s' : State} {evs : List Ev}
    (hs : sys.step s a = some (s', evs)) {w : Nat} (hlt : w < s.nw) :
    (s'.wr w).req = (s.wr w).req ∧ (s'.wr w).grp = (s.wr w).grp ∧ (s'.wr w).done = (s.wr w).done ∧
    ((∀ h b, a ≠ .reply w h b) → (∀ v, a ≠ .take w v) → (s'.wr w).res = (s.wr w).res) :=
  pointers hs hlt

/-- C111, isolation: nothing but the message that a call is meant for changes.
Missing: callers that give one header object to two messages, or the header of one message to
another. -/
theorem C111_isolated_partial {h : List Ev} {s : State} (hr : sys.Run h s) (ho : Once h) {a : Act}
    {s' : State} {evs : List Ev} (hs : sys.step s a = some (s', evs)) {m : Nat} (hm : m < s.nm)
    (ht : ∀ w b, target a = some (w, b) → side s w b ≠ m) : look s' m = look s m :=
  frame (wf_run hr) (priv_run hr ho) hs hm ht

/-- C111, wrappers share no message, as long as none is made by `Swap` and no response is taken over
from another wrapper; a request is never the response of any wrapper, in any case. -/
theorem C111_separate {h : List Ev} {s : State} (hr : sys.Run h s) :
    (∀ w w', w < s.nw → w' < s.nw → (s.wr w).req ≠ (s.wr w').res) ∧
    (NoShare h → ∀ w w' b, w < s.nw → w' < s.nw → side s w b = side s w' b → w = w') := by
  have hw := wf_run hr
  refine ⟨fun w w' h1 h2 hh => hw.res_req w' w h2 h1 hh.symm, ?_⟩
  intro hn w w' b h1 h2 hh
  cases b with
  | true =>
    have := (hw.req_org w w' h1 h2).1 hh
    have hs : ∀ v, origin h.reverse v = v := origin_self _ (by
      intro v v' hm; exact (hn v v').1 (List.mem_reverse.1 hm))
    rw [hs, hs] at this
    exact this
  | false => exact res_run hr hn w w' h1 h2 hh

/-- C111, `Swap`: the new wrapper has the request and the response of the old one, in their places, a
waitgroup of its own and a `Done` channel; nothing else changes. -/
theorem C111_swap {h : List Ev} {s : State} (hr : sys.Run h s) {w : Nat} {s' : State} {evs : List Ev}
    (hs : sys.step s (.swap w) = some (s', evs)) :
    (s'.wr s.nw).req = (s.wr w).req ∧ (s'.wr s.nw).res = (s.wr w).res ∧ (s'.wr s.nw).done = true ∧
    (∀ v, v < s.nw → (s'.wr v).grp ≠ (s'.wr s.nw).grp) ∧ (∀ v, v < s.nw → s'.wr v = s.wr v) ∧
    s'.hdr = s.hdr ∧ s'.cell = s.cell ∧ s'.nw = s.nw + 1 := by
  have hw := wf_run hr
  simp only [sys, step] at hs
  split at hs
  · cases hs
    refine ⟨by simp [swapWrapper], by simp [swapWrapper], by simp [swapWrapper], ?_, ?_, rfl, rfl, rfl⟩
    · intro v hv
      have := hw.grp_lt v hv
      simp [swapWrapper, upd_apply, Nat.ne_of_lt hv]; omega
    · intro v hv
      simp [swapWrapper, upd_apply, Nat.ne_of_lt hv]
  · cases hs

/-- The comment in `Swap` says that it exchanges `Req` and `Res`. -/
def SwapExchanges : Prop :=
  ∀ h s w s' evs, sys.Run h s → sys.step s (.swap w) = some (s', evs) →
    (s'.wr s.nw).req = (s.wr w).res ∧ (s'.wr s.nw).res = (s.wr w).req

/-- C111: `Swap` never exchanges them. -/
theorem C111_swap_refuted : ¬ SwapExchanges ∧
    ∀ h s w s' evs, sys.Run h s → sys.step s (.swap w) = some (s', evs) →
      (s'.wr s.nw).req ≠ (s.wr w).res ∧ (s'.wr s.nw).res ≠ (s.wr w).req := by
  have key : ∀ h s w s' evs, sys.Run h s → sys.step s (.swap w) = some (s', evs) →
      (s'.wr s.nw).req ≠ (s.wr w).res ∧ (s'.wr s.nw).res ≠ (s.wr w).req := by
    intro h s w s' evs hr hs
    obtain ⟨h1, h2, _⟩ := C111_swap hr hs
    have hlt : w < s.nw := by
      simp only [sys, step] at hs
      split at hs
      · assumption
      · cases hs
    rw [h1, h2]
    exact ⟨(C111_separate hr).1 w w hlt hlt, fun hh => (C111_separate hr).1 w w hlt hlt hh.symm⟩
  refine ⟨fun H => ?_, key⟩
  have hr : sys.Run _ _ := Lts.run_of_exec (M := sys) (as := [.new none "m"]) rfl
  exact (key _ _ 0 _ _ hr rfl).1 (H _ _ 0 _ _ hr rfl).1

/-- Isolation for all callers. -/
def Isolated : Prop :=
  ∀ h s a s' evs m, sys.Run h s → sys.step s a = some (s', evs) → m < s.nm →
    (∀ w b, target a = some (w, b) → side s w b ≠ m) → look s' m = look s m

/-- C111: a header object given to the responses of two wrappers is shared; custom fields set in one
response appear in the other. -/
theorem C111_refuted : ¬ Isolated := by
  intro H
  have hr : sys.Run _ _ := Lts.run_of_exec (M := sys) (as := [.new none "m", .new none "n",
    .header blank, .resHeader 0 (some 4), .resHeader 1 (some 4)]) rfl
  have := H _ _ (.resCustom 0 [7]) _ _ 3 hr rfl (by decide) (by
    intro w b hh
    cases hh
    decide)
  have hne : (look _ 3).1.map (fun h : Hdr => h.custom) = (look _ 3).1.map (fun h : Hdr => h.custom) :=
    congrArg (fun x => x.1.map (fun h : Hdr => h.custom)) this
  revert hne
  decide

/-- C111: the header of the own request given to `WithResHeader` is shared in the same way; the custom
fields of the response then overwrite those of the request. -/
theorem C111_own_header_refuted : ∃ h s s' evs, sys.Run h s ∧
    sys.step s (.resCustom 0 [7]) = some (s', evs) ∧
    (look s (s.wr 0).req).1.map (fun h => h.custom) = some [3] ∧
    (look s' (s'.wr 0).req).1.map (fun h => h.custom) = some [7] :=
  ⟨_, _, _, _, Lts.run_of_exec (M := sys) (as := [.new none "m", .reqCustom 0 [3],
    .resHeader 0 (some 0)]) rfl, rfl, by decide, by decide⟩

/-- A run that keeps to the discipline: two wrappers, a header object made and given once. -/
example : ∃ h s, sys.Run h s ∧ Once h ∧ s.nm = 4 ∧
    look s (s.wr 0).res = (some { blank with token := "t" }, [1]) := by
  refine ⟨_, _, Lts.run_of_exec (M := sys) (as := [.new none "m", .new none "n",
    .header { blank with token := "t" }, .resHeader 0 (some 4), .resBody 0 [1], .reqBody 1 [2]]) rfl, ?_,
    rfl, by decide⟩
  intro p
  show List.countP (linkOf p) [.made 0, .made 1, .header 4, .resLinked 0 (some 4)] ≤ 1 ∧ _
  by_cases hp : 4 = p
  · subst hp; decide
  · simp [linkOf, hp]

/-- Copying a header keeps the timestamp of the old one. -/
example : written (fun _ => { blank with event := "e", timestamp := 5 }) (.reqHeader 0 (some 9))
    (some { blank with id := "i", timestamp := 2 }, [8])
    = (some { blank with event := "e", timestamp := 2 }, [8]) := by decide

/-- A wrapper without a request header cannot be sent. -/
example : ∃ s, sys.Run [.made 0, .cleared 0, .panicked] s :=
  ⟨_, Lts.run_of_exec (M := sys) (as := [.new none "m", .reqHeader 0 none,
    .stamp 0 0 "a" "T" "x"]) rfl⟩

/-- C111, the reply to a remote call: it can be stored in every wrapper that exists, and then the response is the reply,
in a message that no wrapper had before; what the old response held can still be read through it. -/
theorem C111_reply {h : List Ev} {s : State} (hr : sys.Run h s) {w : Nat} (hlt : w < s.nw) (hd : Option Hdr) (b : Bytes) :
    ∃ s', sys.step s (.reply w hd b) = some (s', [.replied w]) ∧ look s' (s'.wr w).res = (hd, b) ∧
      look s' (s.wr w).res = look s (s.wr w).res ∧ s'.nw = s.nw ∧
      ∀ v, v < s.nw → (s.wr v).req ≠ (s'.wr w).res ∧ (s.wr v).res ≠ (s'.wr w).res := by
  have hw := wf_run hr
  have hres := hw.res_lt w hlt
  refine ⟨reply s w hd b, by simp [sys, step, hlt], ?_, ?_, ?_, ?_⟩
  · cases hd <;> simp [reply, look]
  · cases hd with
    | none =>
      simp only [reply, look]
      rw [upd_of_ne _ _ (by omega)]
    | some hd =>
      simp only [reply, look]
      rw [upd_of_ne _ _ (by omega)]
      cases hp : (s.cell (s.wr w).res).hp with
      | none => rfl
      | some p =>
        have := hw.hp_lt _ hres p hp
        simp only [Option.map_some]
        rw [upd_of_ne _ _ (by omega)]
  · cases hd <;> rfl
  · intro v hv
    have h1 := hw.req_lt v hv
    have h2 := hw.res_lt v hv
    cases hd <;> simp only [reply, upd_same] <;> exact ⟨by omega, by omega⟩

/-- C111: every builder function can be called on every wrapper that exists, with a header that exists; and so can a send,
by a goroutine that is not sending. -/
theorem C111_possible {s : State} {w : Nat} (hlt : w < s.nw) {a : Act}
    (ha : (∃ b, target a = some (w, b)) ∨ a = .swap w)
    (hp : ∀ p, (a = .reqHeader w (some p) ∨ a = .resHeader w (some p)) → p < s.nh)
    (hg : ∀ g v x y z, a = .stamp g v x y z → s.pc g = .idle) : sys.step s a ≠ none := by
  rcases ha with ⟨b, ha⟩ | rfl
  · cases a <;> simp only [target, Option.some.injEq, Prod.mk.injEq, reduceCtorEq] at ha
    all_goals obtain ⟨rfl, -⟩ := ha
    case stamp g x y z => simp [sys, step, hlt, hg _ _ _ _ _ rfl]
    case reqHeader p =>
      have : ∀ q, p = some q → q < s.nh := fun q hq => hp q (.inl (by rw [hq]))
      simp only [sys, step]
      rw [if_pos ⟨hlt, this⟩]
      simp
    case resHeader p =>
      have : ∀ q, p = some q → q < s.nh := fun q hq => hp q (.inr (by rw [hq]))
      simp only [sys, step]
      rw [if_pos ⟨hlt, this⟩]
      simp
    all_goals simp [sys, step, hlt]
  · simp [sys, step, hlt]

/-- A wrapper gets a reply, and then a body in the reply. -/
example : ∃ s, sys.Run [.made 0, .replied 0] s ∧ look s (s.wr 0).res = (none, [6]) ∧ (s.wr 0).req < s.nm :=
  ⟨_, Lts.run_of_exec (M := sys) (as := [.new none "i", .reply 0 none [1], .resBody 0 [6]]) rfl, by decide +kernel,
    by decide +kernel⟩

end Braid.Share
