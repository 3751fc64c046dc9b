import Verif.Props.InotifyReads

/-!
# Events of other files don't matter: C166
-/

namespace Verif.Inotify
open Verif.C Spec

/-- What the handlers of a watch are called with, if they're called for the events `b` -/
theorem delivered_toCall {t : List (Nat × Nat)} {w d : Nat} (hl : ∀ x, tableLookup t x = some w ↔ x = d) (b : List (Nat × Ev)) :
    delivered w ((toCall t b).map (fun p => .delivered p.1 p.2)) = (b.filter (fun p => p.1 = d)).map Prod.snd := by
  induction b with
  | nil => rfl
  | cons p b ih =>
    have hp := hl p.1
    unfold delivered toCall at ih ⊢
    rw [List.filterMap_cons]
    cases h : tableLookup t p.1 with
    | none =>
      have hne : ¬ p.1 = d := fun e => by rw [hp.2 e] at h; cases h
      rw [List.filter_cons, if_neg (by simpa using hne)]
      simpa using ih
    | some v =>
      by_cases hv : v = w
      · subst hv
        have e : p.1 = d := hp.1 h
        rw [List.filter_cons, if_pos (by simpa using e)]
        simpa using ih
      · have hne : ¬ p.1 = d := fun e => by rw [hp.2 e] at h; cases h; exact hv rfl
        rw [List.filter_cons, if_neg (by simpa using hne)]
        simpa [hv] using ih

/-- Each watch has one descriptor. -/
theorem lookup_only {s : State} (h : Reach anything s) {i : Inst} (hi : s.inst = some i) {w d : Nat} (hw : tableLookup i.table d = some w) (x : Nat) :
    tableLookup i.table x = some w ↔ x = d := by
  have hr := reach_rest h
  constructor
  · intro hx
    obtain ⟨a, ha, hda⟩ := hr.inv.table i hi d w (lookup_mem hw)
    obtain ⟨b, hb, hdb⟩ := hr.inv.table i hi x w (lookup_mem hx)
    rw [ha] at hb
    cases hb
    rw [hda] at hdb
    cases hdb
    rfl
  · rintro rfl
    exact hw

/-- **C166** If the handlers do nothing to the watches, then the handlers of a watch are called exactly for those events which have been read and which have its watch descriptor,
in that order. -/
theorem C166_own {s s' : State} {ns : List Nat} (h : Reach anything s) (hr : Reads s ns s') {i : Inst} (hi : s.inst = some i) {w d : Nat}
    (hw : tableLookup i.table d = some w) :
    delivered w s'.log = delivered w s.log ++ ((s.queue.take ns.sum).filter (fun p => p.1 = d)).map Prod.snd := by
  rw [(reads_result h hr hi).1]
  dsimp only
  rw [delivered_append, delivered_toCall (lookup_only h hi hw)]

/-- **C166** So whatever happens to other files doesn't matter: if two programs have got the same events for the file which the watch `w` of one and `v` of the other is watching,
among any other events, then the handlers of these watches have been called with the same events in the same order. -/
theorem C166_others {s s' t t' : State} {ns ms : List Nat} (hs : Reach anything s) (ht : Reach anything t) (rs : Reads s ns s') (rt : Reads t ms t')
    {i j : Inst} (hi : s.inst = some i) (hj : t.inst = some j) {w v d c : Nat} (hw : tableLookup i.table d = some w) (hv : tableLookup j.table c = some v)
    (hq : ((s.queue.take ns.sum).filter (fun p => p.1 = d)).map Prod.snd = ((t.queue.take ms.sum).filter (fun p => p.1 = c)).map Prod.snd) :
    ∃ evs, delivered w s'.log = delivered w s.log ++ evs ∧ delivered v t'.log = delivered v t.log ++ evs :=
  ⟨_, C166_own hs rs hi hw, by rw [hq]; exact C166_own ht rt hj hv⟩

/-- The conditions are met: one of the programs also watches another file, and something happens to that too. -/
example : ∃ s s' t t' i j, Reach anything s ∧ Reach anything t ∧ Reads s [2, 1] s' ∧ Reads t [2] t' ∧ s.inst = some i ∧ t.inst = some j ∧
    tableLookup i.table 2 = some 1 ∧ tableLookup j.table 1 = some 0 ∧
    ((s.queue.take 3).filter (fun p => p.1 = 2)).map Prod.snd = ((t.queue.take 2).filter (fun p => p.1 = 1)).map Prod.snd ∧
    delivered 1 s'.log = [⟨4, 0, []⟩, ⟨4, 0, [97]⟩] ∧ delivered 0 t'.log = [⟨4, 0, []⟩, ⟨4, 0, [97]⟩] := by
  obtain ⟨s, e, h⟩ := reach_exec (l := [.new 7 2 3, .new 8 4 3, .happen 8 ⟨4, 0, []⟩, .happen 7 ⟨2, 0, []⟩, .happen 8 ⟨4, 0, [97]⟩]) (.init [] List.nodup_nil) (by decide)
  obtain ⟨t, e', h'⟩ := reach_exec (l := [.new 8 4 3, .happen 8 ⟨4, 0, []⟩, .happen 8 ⟨4, 0, [97]⟩]) (.init [] List.nodup_nil) (by decide)
  cases e
  cases e'
  exact ⟨_, _, _, _, _, _, h, h', .cons (k := 2) (by decide) rfl rfl (.cons (k := 1) (by decide) rfl rfl .nil), .cons (k := 2) (by decide) rfl rfl .nil, rfl, rfl,
    by decide, by decide, by decide, by decide, by decide⟩

end Verif.Inotify
