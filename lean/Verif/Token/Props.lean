import Verif.Token.Spec
/-
C58: a token round-trips and is authenticated.
-/
namespace Braid.Token
open Spec

theorem split_nodot {l : Bytes} (h : dot ∉ l) : split l = [l] := by
  induction l with
  | nil => rfl
  | cons c l ih =>
    rw [List.mem_cons, not_or] at h
    simp only [split]
    rw [if_neg (fun hc => h.1 hc.symm), ih h.2]

theorem split_append {l r : Bytes} (h : dot ∉ l) : split (l ++ dot :: r) = l :: split r := by
  induction l with
  | nil => simp [split]
  | cons c l ih =>
    rw [List.mem_cons, not_or] at h
    simp only [List.cons_append, split]
    rw [if_neg (fun hc => h.1 hc.symm), ih h.2]

theorem split_ne_nil (t : Bytes) : split t ≠ [] := by
  cases t with
  | nil => simp [split]
  | cons c l =>
    simp only [split]
    split
    · simp
    · split <;> simp

/-- The parts, joined by dots, are the text. -/
theorem split_join (t : Bytes) : ∀ w ws, split t = w :: ws → t = w ++ ws.flatMap (dot :: ·) := by
  induction t with
  | nil => intro w ws h; simp only [split] at h; cases h; rfl
  | cons c l ih =>
    intro w ws h
    cases hs : split l with
    | nil => exact absurd hs (split_ne_nil l)
    | cons v vs =>
      have e := ih v vs hs
      simp only [split, hs] at h
      split at h
      · rename_i hc
        cases h
        rw [hc, List.flatMap_cons, List.nil_append, List.cons_append, ← e]
      · cases h
        rw [List.cons_append, ← e]

/-- C58, round trip: `Create` makes a token for every id that is not empty, and no other; `Parse` of it returns the
id as the JSON library keeps it, which is the id itself if that is UTF-8. Full claim: `Parse` returns the id itself;
refuted below for ids that are not UTF-8. -/
theorem C58_round_trip_partial {L : Lib} {fix : Bytes → Bytes} (hL : Ok L fix) (id : Bytes) :
    (id ≠ [] ↔ ∃ t, create L id = some t) ∧
    ∀ t, create L id = some t → fix id ≠ [] → parse L t = some (fix id) := by
  refine ⟨?_, ?_⟩
  · unfold create
    by_cases h : id = []
    · simp [h]
    · rw [if_neg h]; exact ⟨fun _ => ⟨_, rfl⟩, fun _ => h⟩
  · intro t ht hf
    unfold create at ht
    split at ht
    · cases ht
    · injection ht with ht
      subst ht
      unfold parse
      rw [List.append_assoc, List.cons_append, split_append (hL.nodot _), split_append (hL.nodot _),
        split_nodot (hL.nodot _)]
      simp only [hL.b64, Option.bind_some, hL.header .hs256 (by decide), hL.claims, if_neg hf]
      rw [if_pos]
      simp [verify, hL.b64]

/-- C58, round trip for UTF-8. -/
theorem C58_round_trip {L : Lib} {fix : Bytes → Bytes} (hL : Ok L fix) {id t : Bytes} (hu : fix id = id)
    (ht : create L id = some t) : parse L t = some id := by
  have hne : id ≠ [] := ((C58_round_trip_partial hL id).1).2 ⟨t, ht⟩
  have := (C58_round_trip_partial hL id).2 t ht (by rw [hu]; exact hne)
  rw [hu] at this; exact this

/-- C58 is violated for ids that the JSON library changes, which are those that are not UTF-8: what `Parse` returns
is another id. -/
theorem C58_not_utf8_refuted {L : Lib} {fix : Bytes → Bytes} (hL : Ok L fix) {id : Bytes} (hne : id ≠ [])
    (hu : fix id ≠ id) : ∃ t, create L id = some t ∧ parse L t ≠ some id := by
  obtain ⟨t, ht⟩ := ((C58_round_trip_partial hL id).1).1 hne
  refine ⟨t, ht, fun hp => ?_⟩
  by_cases hf : fix id = []
  · -- an empty id is never returned for this token
    unfold create at ht
    rw [if_neg hne] at ht
    injection ht with ht
    subst ht
    unfold parse at hp
    rw [List.append_assoc, List.cons_append, split_append (hL.nodot _), split_append (hL.nodot _),
      split_nodot (hL.nodot _)] at hp
    simp only [hL.b64, Option.bind_some, hL.header .hs256 (by decide), hL.claims, if_pos hf] at hp
    cases hp
  · rw [(C58_round_trip_partial hL id).2 t ht hf] at hp
    exact hu (Option.some.inj hp)

/-- C58, authenticity: for every byte string and whatever the libraries do, `Parse` accepts it only if it is signed
with the key, and returns the id written in it, which is not empty. -/
theorem C58_authentic (L : Lib) {t id : Bytes} (h : parse L t = some id) :
    id ≠ [] ∧ ∃ c, Signed L key t c ∧ Names L c id := by
  unfold parse at h
  split at h
  · rename_i hd c s hs
    have hj := split_join t _ _ hs
    simp only [List.flatMap_cons, List.flatMap_nil, List.append_nil] at hj
    split at h
    · cases h
    · rename_i a ha
      split at h
      · cases h
      · rename_i id' hid
        split at h
        · cases h
        · rename_i hne
          split at h
          · rename_i hv
            cases h
            rw [Option.bind_eq_some_iff] at ha hid
            obtain ⟨hb, hb1, hb2⟩ := ha
            refine ⟨hne, c, ⟨hd, s, hb, a, ?_, hb1, hb2, ?_, ?_⟩, hid⟩
            · simpa using hj
            · cases a <;> simp_all [verify]
            · have e : hd ++ [dot] ++ c = hd ++ dot :: c := by simp
              rw [e]
              unfold verify at hv
              split at hv
              · cases hv
              · split at hv
                · rename_i s' hs'
                  rw [hs', beq_iff_eq.1 hv]
                · cases hv
          · cases h
  · cases h

/-- C58, authenticity, the other way round: `Parse` accepts every signed string that names an id that is not empty
and has no dots in its parts. -/
theorem C58_complete (L : Lib) {h c s hb id : Bytes} {a : Alg} (hd : dot ∉ h ∧ dot ∉ c ∧ dot ∉ s)
    (h1 : L.unb64 h = some hb) (h2 : L.unheader hb = some a) (ha : a ≠ .other)
    (hs : L.unb64 s = some (L.mac a key (h ++ [dot] ++ c))) (hn : Names L c id) (hne : id ≠ []) :
    parse L (h ++ [dot] ++ c ++ [dot] ++ s) = some id := by
  obtain ⟨b, hb1, hb2⟩ := hn
  have e : h ++ [dot] ++ c ++ [dot] ++ s = h ++ dot :: (c ++ dot :: s) := by simp
  rw [e]
  unfold parse
  rw [split_append hd.1, split_append hd.2.1, split_nodot hd.2.2]
  have e2 : h ++ [dot] ++ c = h ++ dot :: c := by simp
  rw [e2] at hs
  simp only [h1, h2, hb1, hb2, Option.bind_some, if_neg hne]
  rw [if_pos]
  cases a <;> simp_all [verify]

/-- C58 is violated in its intent: the key is not configured but a constant of the source, so an outsider who never
calls `Create` makes, for any id, a string that `Parse` accepts. With the methods HS384 and HS512, which `Create` never
uses, `Parse` accepts it as well, so it even accepts strings that `Create` makes for no id. -/
theorem C58_forged_refuted {L : Lib} {fix : Bytes → Bytes} (hL : Ok L fix) {id : Bytes} (hne : fix id ≠ []) :
    (∀ a, a ≠ .other → parse L (forge L a id) = some (fix id)) ∧
    (∀ a, a ≠ .other → a ≠ .hs256 → ∀ id', create L id' ≠ some (forge L a id)) := by
  refine ⟨fun a ha => ?_, fun a ha h2 id' hc => ?_⟩
  · have hk : published = key := by decide +kernel
    exact C58_complete L ⟨hL.nodot _, hL.nodot _, hL.nodot _⟩ (hL.b64 _) (hL.header a ha) ha
      (by rw [hL.b64, hk]) ⟨_, hL.b64 _, hL.claims id⟩ hne
  · unfold create at hc
    split at hc
    · cases hc
    · have hc := Option.some.inj hc
      have hs := congrArg split hc
      have e : forge L a id = L.b64 (L.header a) ++ dot :: (L.b64 (L.claims id) ++ dot ::
          L.b64 (L.mac a published (L.b64 (L.header a) ++ [dot] ++ L.b64 (L.claims id)))) := by simp [forge]
      rw [e, List.append_assoc, List.cons_append, split_append (hL.nodot _), split_append (hL.nodot _),
        split_append (hL.nodot _)] at hs
      have hh := (List.cons.inj hs).1
      have h3 := congrArg L.unb64 hh
      rw [hL.b64, hL.b64] at h3
      have h4 := congrArg L.unheader (Option.some.inj h3)
      rw [hL.header _ (by decide), hL.header a ha] at h4
      exact h2 (Option.some.inj h4).symm

/-- Decoding for the examples: two letters for each byte. -/
def toyDecode : Bytes → Option Bytes
  | [] => some []
  | [_] => none
  | a :: b :: l => (toyDecode l).map (((a - 97) * 16 + (b - 97)) :: ·)

/-- An instance of the libraries for the examples: the encodings write each byte as two letters, and the code is the
sum of all bytes. -/
def toyLib : Lib where
  b64 := fun x => x.flatMap (fun b => [97 + b / 16, 97 + b % 16])
  unb64 := toyDecode
  header := fun a => match a with | .hs256 => [1] | .hs384 => [2] | .hs512 => [3] | .other => []
  unheader := fun x => match x with | [1] => some .hs256 | [2] => some .hs384 | [3] => some .hs512 | _ => none
  claims := fun x => x.filter (· < 128)
  unclaims := fun x => some x
  mac := fun _ k m => [(k ++ m).sum]

theorem toy_byte (b : UInt8) : (97 + b / 16 - 97) * 16 + (97 + b % 16 - 97) = b := by
  apply UInt8.toNat_inj.1
  simp only [UInt8.toNat_add, UInt8.toNat_mul, UInt8.toNat_sub, UInt8.toNat_div, UInt8.toNat_mod, UInt8.toNat_ofNat,
    Nat.reducePow, Nat.reduceMod, Nat.reduceSub]
  have := b.toNat_lt
  omega

theorem toy_dot (b : UInt8) : (97 + b / 16) ≠ dot ∧ (97 + b % 16) ≠ dot := by
  have := b.toNat_lt
  constructor <;> intro h <;> have h := congrArg UInt8.toNat h <;>
    simp only [UInt8.toNat_add, UInt8.toNat_div, UInt8.toNat_mod, UInt8.toNat_ofNat, show dot.toNat = 46 from rfl, Nat.reducePow,
      Nat.reduceMod] at h <;> omega

/-- The example: the assumptions on the libraries can be met, with a correction that changes some ids. -/
theorem toy_ok : Ok toyLib (fun x => x.filter (· < 128)) where
  b64 := by
    intro x
    simp only [toyLib]
    induction x with
    | nil => rfl
    | cons b x ih =>
      simp only [List.flatMap_cons, List.cons_append, List.nil_append, toyDecode]
      rw [ih]
      simp [toy_byte]
  nodot := by
    intro x hx
    simp only [toyLib, List.mem_flatMap, List.mem_cons, List.not_mem_nil, or_false] at hx
    obtain ⟨b, -, h | h⟩ := hx
    · exact (toy_dot b).1 h.symm
    · exact (toy_dot b).2 h.symm
  header := by intro a ha; cases a <;> first | rfl | exact absurd rfl ha
  claims := fun _ => rfl

example : ∃ t, create toyLib [65, 66] = some t ∧ parse toyLib t = some [65, 66] :=
  ⟨_, rfl, C58_round_trip toy_ok (by decide) rfl⟩

example : ∃ t, create toyLib [65, 200] = some t ∧ parse toyLib t ≠ some [65, 200] :=
  C58_not_utf8_refuted toy_ok (by decide) (by decide)

example : parse toyLib (forge toyLib .hs512 [65, 66]) = some [65, 66] ∧
    create toyLib [65, 66] ≠ some (forge toyLib .hs512 [65, 66]) :=
  ⟨(C58_forged_refuted toy_ok (by decide)).1 _ (by decide),
    (C58_forged_refuted toy_ok (id := [65, 66]) (by decide)).2 _ (by decide) (by decide) _⟩

end Braid.Token
