import Verif.AddressBook.Clear
import Verif.AddressBook.Props

/-! C34, continued: what lookups return at any time after a node has called `Clear`. -/

namespace Braid.AddressBook

open Spec

variable {cfg : Nat → NodeCfg} {own : String → Nat}

/-- C34, on the cleared node, exactly: at any time after `Clear` on `n`, whatever the other nodes do, a
lookup by id on `n` still returns an actor of `n` iff it was registered there when `Clear` was called. -/
theorem C34_local_exact (hd : DistinctNodes cfg) (ops post : List Op) (n : Nat)
    (hl : LegalOps own (ops ++ .clear n :: post)) (id : String) :
    (∃ a, getByID cfg (runOps cfg (ops ++ .clear n :: post)) n id = .ok a ∧
      a.node = (cfg n).nodeID) ↔ ∃ r ∈ dir ops, r.node = n ∧ r.id = id := by
  have hl0 : LegalOps own ops := fun p o q e => hl p o (q ++ .clear n :: post) (by rw [e]; simp)
  have hn : n ∉ stopped ops := (hl ops (.clear n) post rfl).1
  have hR0 := refines_run hd ops hl0
  have hR := refines_run hd _ hl
  have hdead : n ∈ stopped (ops ++ .clear n :: post) := by simp [stopped_append, stopped]
  have hpost : ∀ op ∈ Op.clear n :: post, opNode op ≠ n ∨ op = .clear n := by
    intro op hop
    rcases List.mem_cons.1 hop with e | hop
    · exact .inr e
    obtain ⟨p, q, rfl⟩ := List.append_of_mem hop
    have := (hl (ops ++ .clear n :: p) op q (by simp)).1
    refine .inl fun e => this ?_
    rw [e]; simp [stopped_append, stopped]
  have hmap : (runOps cfg (ops ++ .clear n :: post)).idmap n = (runOps cfg ops).idmap n := by
    rw [runOps, List.foldl_append]; exact idmap_others n _ _ hpost
  constructor
  · rintro ⟨a, ha, hnode⟩
    simp only [getByID] at ha
    by_cases h0 : id = ""
    · rw [if_pos h0] at ha; cases ha
    rw [if_neg h0] at ha
    by_cases h1 : (runOps cfg (ops ++ .clear n :: post)).idmap n id = true
    · rw [hmap] at h1
      obtain ⟨r, hr, e1, e2⟩ := (hR0.idmap n hn id).1 h1
      exact ⟨r, hr, e2, e1⟩
    · rw [if_neg h1] at ha
      split at ha
      · cases ha
      · rename_i b hb
        cases ha
        obtain ⟨r, hr, -, rfl⟩ := (hR.ids id _).1 hb
        have e : r.node = n := hd _ _ hnode
        exact absurd hdead (e ▸ (hR.wf r hr).2.2.2)
  · rintro ⟨r, hr, e1, e2⟩
    have h1 := (hR0.idmap n hn id).2 ⟨r, hr, e2, e1⟩
    refine ⟨⟨id, "", (cfg n).nodeID, (cfg n).ip, (cfg n).port⟩, ?_, rfl⟩
    rw [getByID, if_neg (e2 ▸ (hR0.wf r hr).1), hmap, if_pos h1]

/-- C34, elsewhere: at any time after `Clear` on `n` no lookup by id on a node that has not called
`Clear`, and no lookup by type, returns an actor of `n`; `n` has neither a load nor a node record. This is
the part that holds (see `C34_local_exact`). -/
theorem C34_for_ever_partial (hd : DistinctNodes cfg) (ops post : List Op) (n : Nat)
    (hl : LegalOps own (ops ++ .clear n :: post)) :
    let W := runOps cfg (ops ++ .clear n :: post)
    (∀ m, m ∉ stopped (ops ++ .clear n :: post) → ∀ id a, getByID cfg W m id = .ok a →
      a.node ≠ (cfg n).nodeID) ∧
    (∀ ty a, a ∈ getByType W ty → a.node ≠ (cfg n).nodeID) ∧
    W.redis.load (cfg n).nodeID = [] ∧ W.redis.nodes (cfg n).nodeID = none := by
  have hR := refines_run hd _ hl
  have hdead : n ∈ stopped (ops ++ .clear n :: post) := by simp [stopped_append, stopped]
  have hnode : ∀ r ∈ dir (ops ++ .clear n :: post), (cfg r.node).nodeID ≠ (cfg n).nodeID :=
    fun r hr e => (hR.wf r hr).2.2.2 (hd _ _ e ▸ hdead)
  refine ⟨fun m hm id a ha e => ?_, fun ty a ha e => ?_, hR.gone n hdead⟩
  · by_cases hex : ∃ r ∈ dir (ops ++ .clear n :: post), r.id = id
    · obtain ⟨r, hr, rfl⟩ := hex
      obtain ⟨b, hb, -, hb', -⟩ := (refines_found hR hr).1 m hm
      rw [ha] at hb; cases hb
      exact hnode r hr (hb'.symm.trans e)
    · exact (refines_not_found hR hex).1 m hm a ha
  · obtain ⟨r, hr, -, rfl⟩ := (hR.tys ty a).1 ha
    exact hnode r hr e

theorem exClear_legal : LegalOps exOwn (exOps ++ [.clear 0, .register 1 "t" "zz" 1]) := by
  have h1 : LegalOps exOwn (exOps ++ [.clear 0]) :=
    legalOps_concat exOps_legal (by simp [Legal, exOps, stopped, opNode])
  have h2 : LegalOps exOwn ((exOps ++ [.clear 0]) ++ [.register 1 "t" "zz" 1]) :=
    legalOps_concat h1 (by simp [Legal, exOps, stopped, opNode, exOwn])
  simpa using h2

example : (∃ a, getByID exCfg (runOps exCfg (exOps ++ [.clear 0, .register 1 "t" "zz" 1])) 0 "x" = .ok a ∧
    a.node = (exCfg 0).nodeID) ∧
    ¬ ∃ a, getByID exCfg (runOps exCfg (exOps ++ [.clear 0, .register 1 "t" "zz" 1])) 0 "y" = .ok a ∧
    a.node = (exCfg 0).nodeID :=
  ⟨(C34_local_exact exCfg_distinct exOps _ 0 exClear_legal "x").2 (by decide +kernel),
    fun h => absurd ((C34_local_exact exCfg_distinct exOps _ 0 exClear_legal "y").1 h) (by decide +kernel)⟩

example : (runOps exCfg (exOps ++ [.clear 0, .register 1 "t" "zz" 1])).redis.load "a" = [] :=
  (C34_for_ever_partial exCfg_distinct exOps _ 0 exClear_legal).2.2.1

end Braid.AddressBook
