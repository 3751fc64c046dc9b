import Verif.Props.Strv
import Verif.Props.Objv
import Verif.Props.ObjvUndo
import Verif.Spec.RemoveEach

/-!
# Removing all and removing one at a time: C160
-/

namespace Verif.RemoveEach
open Verif.C Spec

theorem filter_ne_erase {α : Type} [BEq α] [LawfulBEq α] [DecidableEq α] (t : α) : ∀ l : List α, (l.erase t).filter (fun s => decide (s ≠ t)) = l.filter (fun s => decide (s ≠ t))
  | [] => rfl
  | x :: l => by
    by_cases h : x = t
    · subst h
      simp
    · rw [List.erase_cons_tail (by simpa using h)]
      rw [List.filter_cons, List.filter_cons, filter_ne_erase t l]

theorem filter_ne_self {α : Type} [BEq α] [LawfulBEq α] [DecidableEq α] (t : α) (l : List α) (h : l.count t ≤ 0) : l.filter (fun s => decide (s ≠ t)) = l := by
  rw [List.filter_eq_self]
  intro a ha
  simp only [decide_eq_true_eq]
  rintro rfl
  have := List.count_pos_iff.2 ha
  omega

section Strings
open Verif.Strv Verif.Strv.Spec

theorem released_trans {h h1 h2 : Heap} {ps ps1 ps2 : List Nat} (s1 : ps1.Sublist ps) (s2 : ps2.Sublist ps1)
    (r1 : Released h h1 (fun x => decide (x ∈ ps) && decide (x ∉ ps1))) (r2 : Released h1 h2 (fun x => decide (x ∈ ps1) && decide (x ∉ ps2))) :
    Released h h2 (fun x => decide (x ∈ ps) && decide (x ∉ ps2)) := by
  refine ⟨r2.1.trans r1.1, fun a ha => ?_⟩
  have e1 := r1.2 a ha
  have e2 := r2.2 a (by rw [r1.1]; exact ha)
  rw [e2, e1]
  have m1 : a ∈ ps1 → a ∈ ps := fun h => s1.subset h
  have m2 : a ∈ ps2 → a ∈ ps1 := fun h => s2.subset h
  by_cases k : a ∈ ps <;> by_cases k1 : a ∈ ps1 <;> by_cases k2 : a ∈ ps2 <;> simp [k, k1, k2] <;> grind

theorem each_strings {a : Nat} {t : Str} : ∀ (n : Nat) (h : Heap) (v : Vec) (ps : List Nat) (ss : List Str), Owns h v ps ss → h[a]? = some (some t) → a ∉ ps → ss.count t ≤ n →
    ∃ h' v' ps', times (fun x : Heap × Vec => Strv.remove x.1 x.2 (some a) false) n (h, v) = .ok (h', v') ∧ Owns h' v' ps' (ss.filter (fun s => decide (s ≠ t))) ∧
      ps'.Sublist ps ∧ Released h h' (fun x => decide (x ∈ ps) && decide (x ∉ ps'))
  | 0, h, v, ps, ss, H, ht, ha, hn => by
    refine ⟨h, v, ps, rfl, ?_, .refl _, released_none (by grind)⟩
    rw [filter_ne_self t ss hn]
    exact H
  | n + 1, h, v, ps, ss, H, ht, ha, hn => by
    obtain ⟨h1, v1, ps1, e1, H1, s1, r1⟩ := C30_remove H ht ha false
    have ht1 : h1[a]? = some (some t) := by
      rw [r1.2 a (List.getElem?_eq_some_iff.1 ht).1]
      simp [ha, ht]
    have hc : (ss.erase t).count t ≤ n := by
      rw [List.count_erase_self]
      omega
    obtain ⟨h2, v2, ps2, e2, H2, s2, r2⟩ := each_strings n h1 v1 ps1 (ss.erase t) H1 ht1 (fun hm => ha (s1.subset hm)) hc
    refine ⟨h2, v2, ps2, ?_, ?_, s2.trans s1, released_trans s1 s2 r1 r2⟩
    · show (Strv.remove h v (some a) false >>= _) = _
      rw [e1]
      exact e2
    · rw [filter_ne_erase] at H2
      exact H2

/-- What is left is determined by the strings. -/
theorem left_unique {h h' : Heap} {ps ps' : List Nat} {ss : List Str} {t : Str} (H : Strings h ps ss) (hs : ps'.Sublist ps)
    (hr : Released h h' (fun x => decide (x ∈ ps) && decide (x ∉ ps'))) (H' : Strings h' ps' (ss.filter (fun s => decide (s ≠ t)))) :
    ps' = ps.filter (fun a => decide (h[a]? ≠ some (some t))) := by
  have hlen' := congrArg List.length H'
  have hlen : (ps.filter (fun a => decide (h[a]? ≠ some (some t)))).length = (ss.filter (fun s => decide (s ≠ t))).length := by
    have : ∀ (ps : List Nat) (ss : List Str), Strings h ps ss →
        (ps.filter (fun a => decide (h[a]? ≠ some (some t)))).length = (ss.filter (fun s => decide (s ≠ t))).length := by
      intro ps
      induction ps with
      | nil =>
        intro ss H
        cases ss with
        | nil => rfl
        | cons s ss => cases H
      | cons p ps ih =>
        intro ss H
        cases ss with
        | nil => cases H
        | cons s ss =>
          unfold Strings at H
          rw [List.map_cons, List.map_cons, List.cons.injEq] at H
          have := ih ss H.2
          by_cases k : s = t
          · simp only [List.filter_cons, H.1, k, ne_eq, not_true, decide_false]
            simpa using this
          · simp only [List.filter_cons, H.1, k, Option.some.injEq, ne_eq, not_false_eq_true, decide_true, if_true, List.length_cons]
            rw [this]
    exact this ps ss H
  have hself : ps'.filter (fun a => decide (h[a]? ≠ some (some t))) = ps' := by
    rw [List.filter_eq_self]
    intro a ha
    simp only [decide_eq_true_eq]
    intro e
    have hal := (List.getElem?_eq_some_iff.1 e).1
    have e' := hr.2 a hal
    simp only [ha, not_true, decide_false, Bool.and_false, Bool.false_eq_true, if_false] at e'
    have hm : h'[a]? ∈ ps'.map (fun a => h'[a]?) := List.mem_map.2 ⟨a, ha, rfl⟩
    rw [show ps'.map (fun a => h'[a]?) = _ from H', e', e] at hm
    obtain ⟨s, hs1, hs2⟩ := List.mem_map.1 hm
    have := List.mem_filter.1 hs1
    simp only [Option.some.injEq] at hs2
    simp [hs2] at this
  have hsub := hs.filter (fun a => decide (h[a]? ≠ some (some t)))
  rw [hself] at hsub
  refine hsub.eq_of_length ?_
  simp only [List.length_map] at hlen'
  omega

theorem released_unique {h h1 h2 : Heap} {p : Nat → Bool} (r1 : Released h h1 p) (r2 : Released h h2 p) : h1 = h2 := by
  refine List.ext_getElem? fun i => ?_
  by_cases hi : i < h.length
  · rw [r1.2 i hi, r2.2 i hi]
  · rw [List.getElem?_eq_none (by have := r1.1; omega), List.getElem?_eq_none (by have := r2.1; omega)]

/-- **C160** Removing all strings equal to a given one is the same as removing one of them at least as many times as there are of them: the same strings are left at the
same addresses, the same strings are released. -/
theorem C160_strings {h : Heap} {v : Vec} {ps : List Nat} {ss : List Str} (H : Owns h v ps ss) {a : Nat} {t : Str} (ht : h[a]? = some (some t)) (ha : a ∉ ps)
    (n : Nat) (hn : ss.count t ≤ n) :
    ∃ h' v1 v2 ps', Strv.remove h v (some a) true = .ok (h', v1) ∧ times (fun x : Heap × Vec => Strv.remove x.1 x.2 (some a) false) n (h, v) = .ok (h', v2) ∧
      Owns h' v1 ps' (ss.filter (fun s => decide (s ≠ t))) ∧ Owns h' v2 ps' (ss.filter (fun s => decide (s ≠ t))) := by
  obtain ⟨h1, v1, ps1, e1, H1, s1, r1⟩ := C30_remove H ht ha true
  obtain ⟨h2, v2, ps2, e2, H2, s2, r2⟩ := each_strings n h v ps ss H ht ha hn
  have u1 := left_unique H.strings s1 r1 H1.strings
  have u2 := left_unique H.strings s2 r2 H2.strings
  subst u2
  subst u1
  have := released_unique r1 r2
  subst this
  exact ⟨h1, v1, v2, _, e1, e2, H1, H2⟩

/-- The hypotheses are met. -/
example : Owns exHeap exVec [0, 1, 2] [[97], [98], [97]] ∧ exHeap[3]? = some (some [97]) ∧ 3 ∉ [0, 1, 2] ∧ List.count ([97] : Str) [[97], [98], [97]] ≤ 3 ∧
    times (fun x : Heap × Vec => Strv.remove x.1 x.2 (some 3) false) 3 (exHeap, exVec) = .ok ([none, some [98], none, some [97]], some [.ptr 1, .null]) :=
  ⟨exOwns, rfl, by decide, by decide, by decide +kernel⟩

end Strings

section Objects
open Verif.Objv Verif.Objv.Spec Verif.Strv.Spec Verif.Ptrv

theorem each_objects {o : Nat} : ∀ (n : Nat) (c : Refs) (v : Vec) (os : List Nat), Holds v os → Covered (cnt c) os → os.count o ≤ n →
    ∃ c' v', times (fun x : Refs × Vec => Objv.remove x.1 x.2 (some o) false) n (c, v) = .ok (c', v') ∧ Holds v' (os.filter (fun a => decide (a ≠ o))) ∧
      Accounted (cnt c) (cnt c') os (os.filter (fun a => decide (a ≠ o)))
  | 0, c, v, os, hv, hc, hn => by
    rw [filter_ne_self o os hn]
    exact ⟨c, v, rfl, hv, fun _ => rfl⟩
  | n + 1, c, v, os, hv, hc, hn => by
    obtain ⟨-, -, -, -, -, g, -⟩ := C37_accounting hv hc
    obtain ⟨c1, v1, e1, hv1, a1⟩ := g o false
    have hcount : (os.erase o).count o ≤ n := by
      rw [List.count_erase_self]
      omega
    obtain ⟨c2, v2, e2, hv2, a2⟩ := each_objects n c1 v1 (os.erase o) hv1 (covered_next hc a1) hcount
    rw [filter_ne_erase] at hv2 a2
    refine ⟨c2, v2, ?_, hv2, fun a => ?_⟩
    · show (Objv.remove c v (some o) false >>= _) = _
      rw [e1]
      exact e2
    · have k1 := a1 a
      have k2 := a2 a
      simp only [Objv.Spec.without, Bool.false_eq_true, if_false] at k1
      omega

/-- **C160** The same for objects: the same objects are left, and they have the same numbers of references. -/
theorem C160_objects {c : Refs} {v : Vec} {os : List Nat} (hv : Holds v os) (hc : Covered (cnt c) os) (o n : Nat) (hn : os.count o ≤ n) :
    ∃ c1 v1 c2 v2, Objv.remove c v (some o) true = .ok (c1, v1) ∧ times (fun x : Refs × Vec => Objv.remove x.1 x.2 (some o) false) n (c, v) = .ok (c2, v2) ∧
      Holds v1 (os.filter (fun a => decide (a ≠ o))) ∧ Holds v2 (os.filter (fun a => decide (a ≠ o))) ∧ cnt c1 = cnt c2 := by
  obtain ⟨-, -, -, -, -, g, -⟩ := C37_accounting hv hc
  obtain ⟨c1, v1, e1, hv1, a1⟩ := g o true
  obtain ⟨c2, v2, e2, hv2, a2⟩ := each_objects n c v os hv hc hn
  refine ⟨c1, v1, c2, v2, e1, e2, hv1, hv2, funext fun a => ?_⟩
  have k1 := a1 a
  have k2 := a2 a
  simp only [Objv.Spec.without, if_true] at k1
  omega

/-- The hypotheses are met (those about the vector are shown beside C154). -/
example : List.count 0 [0, 1, 0] ≤ 2 ∧
    Objv.remove [3, 1, 1] (some [.ptr 0, .ptr 1, .ptr 0, .null]) (some 0) true = .ok ([1, 1, 1], some [.ptr 1, .null]) ∧
    times (fun x : Refs × Vec => Objv.remove x.1 x.2 (some 0) false) 2 ([3, 1, 1], some [.ptr 0, .ptr 1, .ptr 0, .null]) = .ok ([1, 1, 1], some [.ptr 1, .null]) :=
  ⟨by decide, by decide +kernel, by decide +kernel⟩

end Objects

end Verif.RemoveEach
