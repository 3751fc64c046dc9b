import Verif.Model.Objv
import Verif.Proof.StrvLift

namespace Verif.Objv
open Verif.C Verif.Strv.Spec Spec
open Verif.Strv (mk mk_length mk_nil mk_cons deref_mk deref_mk_end deref_zero deref_cons memmove_mk renew_holds store_at
  firstIndex_neg firstIndex_lt firstIndex_spec lastIndex_concat lastIndex_ge lastIndex_neg lastIndex_spec
  filter_eraseIdx take_map_ptr drop_map_ptr)

theorem length_ok {v : Vec} {os : List Nat} (h : Holds v os) : Ptrv.length v = .ok os.length := Strv.length_ok h

/-! ### Reference counts -/

theorem objRef_ok {c : Refs} {a : Nat} (h : 0 < cnt c a) :
    ∃ c', objRef c a = .ok c' ∧ ∀ x, cnt c' x = cnt c x + if x = a then 1 else 0 := by
  refine ⟨_, by rw [objRef, if_pos h], ?_⟩
  have hlt : a < c.length := by
    by_cases hl : a < c.length
    · exact hl
    · rw [cnt, List.getElem?_eq_none (by omega)] at h; simp at h
  intro x
  by_cases e : x = a
  · subst e
    rw [if_pos rfl, cnt, List.getElem?_set_self hlt]; rfl
  · rw [if_neg e, cnt, List.getElem?_set_ne (fun e' => e e'.symm)]; rfl

theorem objUnref_ok {c : Refs} {a : Nat} (h : 0 < cnt c a) :
    ∃ c', objUnref c a = .ok c' ∧ ∀ x, cnt c' x + (if x = a then 1 else 0) = cnt c x := by
  refine ⟨_, by rw [objUnref, if_pos h], ?_⟩
  have hlt : a < c.length := by
    by_cases hl : a < c.length
    · exact hl
    · rw [cnt, List.getElem?_eq_none (by omega)] at h; simp at h
  intro x
  by_cases e : x = a
  · subst e
    have : cnt (c.set x (cnt c x - 1)) x = cnt c x - 1 := by
      rw [cnt, List.getElem?_set_self hlt]; rfl
    rw [if_pos rfl, this]
    omega
  · rw [if_neg e, cnt, List.getElem?_set_ne (fun e' => e e'.symm)]; rfl

theorem accounted_trans {c c1 c2 : Nat → Nat} {os os1 os2 : List Nat} (h1 : Accounted c c1 os os1)
    (h2 : Accounted c1 c2 os1 os2) : Accounted c c2 os os2 := by
  intro a
  have := h1 a
  have := h2 a
  omega

theorem accounted_refl {c : Nat → Nat} {os : List Nat} : Accounted c c os os := fun _ => rfl

theorem covered_of {c c' : Nat → Nat} {os os' : List Nat} (h : Covered c os) (h' : Accounted c c' os os') :
    Covered c' os' := by
  intro a
  have := h a
  have := h' a
  omega

theorem count_cons' (a o : Nat) (os : List Nat) : List.count a (o :: os) = os.count a + if a = o then 1 else 0 := by
  rw [List.count_cons]
  by_cases e : a = o
  · subst e; simp
  · have e' : ¬ o = a := fun h => e h.symm
    simp [e, e']

theorem count_ite (a o : Nat) : List.count a [o] = if a = o then 1 else 0 := by
  rw [count_cons', List.count_nil]; omega

theorem newLoop_ok : ∀ (args : List Nat) (c : Refs) (os : List Nat) (rest : Block), (∀ a ∈ args, 0 < cnt c a) →
    rest.length = args.length + 1 →
    ∃ c' x, newLoop c (os.map Cell.ptr ++ rest) os.length args =
      .ok (c', (os ++ args).map Cell.ptr ++ [x], os.length + args.length) ∧
      ∀ a, cnt c' a = cnt c a + args.count a
  | [], c, os, rest, _, hr => by
    rcases rest with _ | ⟨x, _ | ⟨y, rest⟩⟩
    · simp at hr
    · exact ⟨c, x, by simp [newLoop], by simp⟩
    · simp at hr
  | o :: args, c, os, rest, ha, hr => by
    rcases rest with _ | ⟨x, rest⟩
    · simp at hr
    · obtain ⟨c1, h1, h1'⟩ := objRef_ok (ha o (by simp))
      obtain ⟨c', y, h2, h2'⟩ := newLoop_ok args c1 (os ++ [o]) rest
        (by intro a haa; have := ha a (by simp [haa]); rw [h1']; omega) (by simpa using hr)
      refine ⟨c', y, ?_, ?_⟩
      · rw [newLoop, store_at, ok_bind, h1, ok_bind]
        simp only [List.map_append, List.map_cons, List.map_nil, List.append_assoc, List.cons_append, List.nil_append,
          List.length_append, List.length_cons, List.length_nil, Nat.zero_add] at h2 ⊢
        rw [h2]
        congr 3
        omega
      · intro a
        rw [h2', h1', count_cons']
        omega

theorem new_ok {c : Refs} {args : List Nat} (ha : ∀ a ∈ args, 0 < cnt c a) :
    ∃ c' v, new c args = .ok (c', v) ∧ Holds v args ∧ Accounted (cnt c) (cnt c') [] args := by
  obtain ⟨c', x, h1, h2⟩ := newLoop_ok args c [] (List.replicate (args.length + 1) .uninit) ha (by simp)
  simp only [List.map_nil, List.nil_append, List.length_nil, Nat.zero_add] at h1
  refine ⟨c', some (args.map Cell.ptr ++ [.null]), ?_, .inr ⟨0, rfl⟩, ?_⟩
  · rw [new, h1, ok_bind]
    dsimp only
    rw [store_at args x []]
    rfl
  · intro a; simpa using h2 a

theorem freeLoop_ok : ∀ (os : List Nat) (n : Nat) (c : Refs), Covered (cnt c) os →
    ∃ c', freeLoop c (mk os n) = .ok c' ∧ Accounted (cnt c) (cnt c') os []
  | [], n, c, _ => ⟨c, rfl, fun _ => rfl⟩
  | o :: os, n, c, hc => by
    have ho : 0 < cnt c o := by have := hc o; rw [List.count_cons_self] at this; omega
    obtain ⟨c1, h1, h1'⟩ := objUnref_ok ho
    have hacc : Accounted (cnt c) (cnt c1) (o :: os) os := by
      intro a
      have := h1' a
      rw [count_cons']
      omega
    obtain ⟨c', h2, h2'⟩ := freeLoop_ok os n c1 (covered_of hc hacc)
    refine ⟨c', ?_, accounted_trans hacc h2'⟩
    rw [mk_cons, freeLoop, load, ok_bind]
    dsimp only
    rw [h1, ok_bind, h2]

theorem free_ok {c : Refs} {v : Vec} {os : List Nat} (hv : Holds v os) (hc : Covered (cnt c) os) :
    ∃ c', free c v = .ok c' ∧ Accounted (cnt c) (cnt c') os [] := by
  rcases hv with ⟨rfl, rfl⟩ | ⟨n, rfl⟩
  · exact ⟨c, rfl, fun _ => rfl⟩
  · exact freeLoop_ok os n c hc

theorem copyLoop_ok : ∀ (os : List Nat) (n k : Nat) (c : Refs), (∀ a ∈ os, 0 < cnt c a) →
    ∃ c', copyLoop c (mk os n) k = .ok (c', k + os.length) ∧ ∀ a, cnt c' a = cnt c a + os.count a
  | [], n, k, c, _ => ⟨c, rfl, fun _ => rfl⟩
  | o :: os, n, k, c, hc => by
    obtain ⟨c1, h1, h1'⟩ := objRef_ok (hc o (by simp))
    obtain ⟨c', h2, h2'⟩ := copyLoop_ok os n (k + 1) c1
      (by intro a ha; have := hc a (by simp [ha]); rw [h1']; omega)
    refine ⟨c', ?_, ?_⟩
    · rw [mk_cons, copyLoop, load, ok_bind]
      dsimp only
      rw [h1, ok_bind, h2, List.length_cons]
      congr 2; omega
    · intro a
      rw [h2', h1', count_cons']
      omega

theorem copy_ok {c : Refs} {v : Vec} {os : List Nat} (hv : Holds v os) (hc : ∀ a ∈ os, 0 < cnt c a) :
    ∃ c' v', copy c v = .ok (c', v') ∧ Holds v' os ∧ Accounted (cnt c) (cnt c') [] os ∧ (v' = none ↔ v = none) := by
  rcases hv with ⟨rfl, rfl⟩ | ⟨n, rfl⟩
  · exact ⟨c, none, rfl, .inl ⟨rfl, rfl⟩, fun _ => rfl, by simp⟩
  · obtain ⟨c', h1, h2⟩ := copyLoop_ok os n 0 c hc
    refine ⟨c', some (mk os 0), ?_, .inr ⟨0, rfl⟩, fun a => by simpa using h2 a, by simp⟩
    change copy c (some (mk os n)) = _
    rw [copy, h1, ok_bind]
    dsimp only
    rw [if_pos (by rw [mk_length]; omega)]
    congr 3
    rw [mk, List.take_append, List.take_of_length_le (by simp)]
    simp [mk]

theorem insertLast_ok {c : Refs} {os : List Nat} {o : Nat} (ho : 0 < cnt c o) {x y : Cell} :
    ∃ c', insertLast c (os.map Cell.ptr ++ [x, y]) o os.length = .ok (c', some (mk (os ++ [o]) 0)) ∧
      Accounted (cnt c) (cnt c') os (os ++ [o]) := by
  obtain ⟨c1, h1, h1'⟩ := objRef_ok ho
  refine ⟨c1, ?_, ?_⟩
  · rw [insertLast, store_at, ok_bind, h1, ok_bind]
    have e := store_at (os ++ [o]) y [] none
    simp only [List.map_append, List.map_cons, List.map_nil, List.append_assoc, List.cons_append, List.nil_append,
      List.length_append, List.length_cons, List.length_nil, Nat.zero_add] at e
    rw [e, ok_bind]
    simp [mk]
  · intro a
    rw [h1', List.count_append, count_ite]
    omega

theorem add_ok {c : Refs} {v : Vec} {os : List Nat} {o : Nat} (hv : Holds v os) (ho : 0 < cnt c o) :
    ∃ c' v', add c v (some o) = .ok (c', v') ∧ Holds v' (os ++ [o]) ∧ Accounted (cnt c) (cnt c') os (os ++ [o]) := by
  obtain ⟨x, rest, h1, h2⟩ := renew_holds hv 2 (by omega)
  rcases rest with _ | ⟨y, _ | ⟨z, rest⟩⟩
  · simp at h2
  · obtain ⟨c', h3, h4⟩ := insertLast_ok (os := os) ho (x := x) (y := y)
    refine ⟨c', _, ?_, .inr ⟨0, rfl⟩, h4⟩
    rw [add, length_ok hv, ok_bind, h1]
    exact h3
  · simp at h2

theorem insert_ok {c : Refs} {v : Vec} {os : List Nat} {o : Nat} (pos : Nat) (hv : Holds v os) (ho : 0 < cnt c o) :
    ∃ c' v', insert c v (some o) pos = .ok (c', v') ∧ Holds v' (os.take pos ++ o :: os.drop pos) ∧
      Accounted (cnt c) (cnt c') os (os.take pos ++ o :: os.drop pos) := by
  by_cases hp : pos ≥ os.length
  · obtain ⟨x, rest, h1, h2⟩ := renew_holds hv 2 (by omega)
    rcases rest with _ | ⟨y, _ | ⟨z, rest⟩⟩
    · simp at h2
    · obtain ⟨c', h3, h4⟩ := insertLast_ok (os := os) ho (x := x) (y := y)
      rw [List.take_of_length_le hp, List.drop_of_length_le hp]
      refine ⟨c', _, ?_, .inr ⟨0, rfl⟩, h4⟩
      rw [insert, length_ok hv, ok_bind, h1]
      dsimp only
      rw [if_pos hp, h3]; rfl
    · simp at h2
  · rcases hv' : hv with ⟨-, rfl⟩ | ⟨n, rfl⟩
    · simp at hp
    · have hlen : Ptrv.length (some (mk os n)) = .ok os.length := length_ok hv
      change ∃ c' v', insert c (some (mk os n)) (some o) pos = .ok (c', v') ∧ _
      obtain ⟨c1, h1, h1'⟩ := objRef_ok ho
      have er : ∃ y, renew (some (mk os n)) (os.length + 2) = os.map Cell.ptr ++ [.null, y] := by
        simp only [renew, Option.getD_some, mk_length]
        rw [mk, List.take_append, List.take_of_length_le (by simp)]
        rcases n with _ | n
        · refine ⟨.uninit, ?_⟩
          simp [show os.length + 2 - (os.length + 1 + 0) = 1 by omega]
        · refine ⟨.uninit, ?_⟩
          rw [show os.length + 2 - (os.length + 1 + (n + 1)) = 0 by omega]
          simp [List.replicate_succ]
      obtain ⟨y, hy⟩ := er
      refine ⟨c1, some (mk (os.take pos ++ o :: os.drop pos) 0), ?_, .inr ⟨0, rfl⟩, ?_⟩
      · rw [insert, hlen, ok_bind, hy]
        dsimp only
        rw [if_neg hp, insertMiddle, memmove, if_pos (by simp; omega), ok_bind]
        have e1 : (os.map Cell.ptr ++ [Cell.null, y]).take (pos + 1) = (os.take pos).map Cell.ptr ++ [.ptr os[pos]] := by
          rw [List.take_append_of_le_length (by simp; omega), ← List.map_take,
            List.take_succ_eq_append_getElem (by omega), List.map_append]
          rfl
        have e2 : ((os.map Cell.ptr ++ [Cell.null, y]).drop pos).take (os.length - pos + 1) =
            (os.drop pos).map Cell.ptr ++ [.null] := by
          rw [List.drop_append_of_le_length (by simp; omega), ← List.map_drop, List.take_append,
            List.take_of_length_le (by simp)]
          simp
        have e3 : (os.map Cell.ptr ++ [Cell.null, y]).drop (pos + 1 + (os.length - pos + 1)) = [] := by
          rw [List.drop_of_length_le (by simp; omega)]
        rw [e1, e2, e3, List.append_nil, List.append_assoc]
        have e4 := store_at (os.take pos) (.ptr os[pos]) ((os.drop pos).map Cell.ptr ++ [.null]) (some o)
        rw [List.length_take, Nat.min_eq_left (by omega)] at e4
        rw [List.cons_append, List.nil_append, e4, ok_bind, h1, ok_bind]
        simp [mk]
      · intro a
        have e : os.count a = (os.take pos).count a + (os.drop pos).count a := by
          rw [← List.count_append, List.take_append_drop]
        rw [h1', List.count_append, count_cons']
        omega

theorem appendLoop_ok : ∀ (qs : List Nat) (c : Refs) (os : List Nat) (rest : Block) (n : Nat), (∀ a ∈ qs, 0 < cnt c a) →
    rest.length = qs.length + 1 →
    ∃ c' x, appendLoop c (os.map Cell.ptr ++ rest) os.length (mk qs n) =
      .ok (c', (os ++ qs).map Cell.ptr ++ [x], os.length + qs.length) ∧
      ∀ a, cnt c' a = cnt c a + qs.count a
  | [], c, os, rest, n, _, hr => by
    rcases rest with _ | ⟨x, _ | ⟨y, rest⟩⟩
    · simp at hr
    · refine ⟨c, x, ?_, by simp⟩
      rw [mk_nil, appendLoop, load, ok_bind]
      simp
    · simp at hr
  | o :: args, c, os, rest, n, ha, hr => by
    rcases rest with _ | ⟨x, rest⟩
    · simp at hr
    · obtain ⟨c1, h1, h1'⟩ := objRef_ok (ha o (by simp))
      obtain ⟨c', y, h2, h2'⟩ := appendLoop_ok args c1 (os ++ [o]) rest n
        (by intro a haa; have := ha a (by simp [haa]); rw [h1']; omega) (by simpa using hr)
      refine ⟨c', y, ?_, ?_⟩
      · rw [mk_cons, appendLoop, load, ok_bind]
        dsimp only
        rw [h1, ok_bind, store_at, ok_bind]
        simp only [List.map_append, List.map_cons, List.map_nil, List.append_assoc, List.cons_append, List.nil_append,
          List.length_append, List.length_cons, List.length_nil, Nat.zero_add] at h2 ⊢
        rw [h2]
        congr 3
        omega
      · intro a
        rw [h2', h1', count_cons']
        omega

theorem append_ok {c : Refs} {v w : Vec} {os qs : List Nat} (hv : Holds v os) (hw : Holds w qs)
    (hq : ∀ a ∈ qs, 0 < cnt c a) :
    ∃ c' v', append c v w = .ok (c', v') ∧ Holds v' (os ++ qs) ∧ Accounted (cnt c) (cnt c') os (os ++ qs) := by
  have hlw := length_ok hw
  rcases hqs : qs with _ | ⟨q, qs'⟩
  · subst hqs
    refine ⟨c, v, ?_, by simpa using hv, by simpa using accounted_refl⟩
    rw [append, hlw, ok_bind]; rfl
  · rw [← hqs]
    have hpos : qs.length > 0 := by rw [hqs]; simp
    rcases hw with ⟨-, rfl⟩ | ⟨n, rfl⟩
    · simp at hpos
    · change Ptrv.length (some (mk qs n)) = _ at hlw
      obtain ⟨x, rest, h1, h2⟩ := renew_holds hv (qs.length + 1) (by omega)
      obtain ⟨c', y, h3, h4⟩ := appendLoop_ok qs c os (x :: rest) n hq (by simp; omega)
      refine ⟨c', some (mk (os ++ qs) 0), ?_, .inr ⟨0, rfl⟩, ?_⟩
      · change append c v (some (mk qs n)) = _
        rw [append, hlw, ok_bind, if_pos hpos, length_ok hv, ok_bind]
        rw [show os.length + qs.length + 1 = os.length + (qs.length + 1) by omega, h1, Option.getD_some]
        dsimp only
        rw [h3, ok_bind]
        dsimp only
        have e := store_at (os ++ qs) y [] none
        rw [List.length_append] at e
        rw [e]
        rfl
      · intro a
        rw [h4, List.count_append]
        omega

/-! ### Lookup -/

theorem findLoop_mk {o : Nat} : ∀ (os : List Nat) (n : Nat) (i : Int),
    findLoop o (mk os n) i = .ok (if firstIndex (fun a => decide (a = o)) os < 0 then -1
      else i + firstIndex (fun a => decide (a = o)) os)
  | [], n, i => rfl
  | a :: os, n, i => by
    rw [mk_cons, findLoop, load, ok_bind]
    dsimp only
    rw [findLoop_mk os n (i + 1)]
    have e0 : firstIndex (fun a => decide (a = o)) (a :: os) = if a = o then 0
        else if firstIndex (fun a => decide (a = o)) os < 0 then -1 else firstIndex (fun a => decide (a = o)) os + 1 := by
      rw [firstIndex]; simp
    rw [e0]
    by_cases e : a = o
    · rw [if_pos e, if_pos e, if_neg (by omega)]; congr 1; omega
    · rw [if_neg e, if_neg e]
      by_cases h : firstIndex (fun a => decide (a = o)) os < 0
      · rw [if_pos h, if_pos h, if_pos (by omega)]
      · rw [if_neg h, if_neg h, if_neg (by omega)]; congr 1; omega

theorem firstIndex_ge {α : Type} {p : α → Bool} : ∀ {l : List α}, -1 ≤ firstIndex p l
  | [] => by simp [firstIndex]
  | x :: t => by
    have := firstIndex_ge (p := p) (l := t)
    rw [firstIndex]
    split
    · omega
    · split <;> omega

theorem find_ok {v : Vec} {os : List Nat} {o : Nat} (hv : Holds v os) :
    find v (some o) = .ok (firstIndex (fun a => decide (a = o)) os) := by
  rcases hv with ⟨rfl, rfl⟩ | ⟨n, rfl⟩
  · rfl
  · refine (findLoop_mk os n 0).trans ?_
    have := firstIndex_ge (p := fun a => decide (a = o)) (l := os)
    congr 1
    split <;> omega

theorem findLastImpl_mk {o : Nat} (os : List Nat) (n off : Nat) : ∀ i, off + i ≤ os.length →
    findLastImpl (mk os n) off o i = .ok (lastIndex (fun a => decide (a = o)) ((os.drop off).take i))
  | 0, _ => by simp [findLastImpl, lastIndex]
  | i + 1, hi => by
    rw [findLastImpl, deref_mk os n (off + i) (by omega), ok_bind]
    have e : (os.drop off).take (i + 1) = (os.drop off).take i ++ [os[off + i]] := by
      rw [List.take_succ_eq_append_getElem (by rw [List.length_drop]; omega), List.getElem_drop]
    rw [e, lastIndex_concat]
    by_cases h0 : os[off + i] = o
    · rw [if_pos (by rw [h0]), if_pos (by simpa using h0), List.length_take, List.length_drop]
      congr 2; omega
    · rw [if_neg (by simpa using h0), if_neg (by simpa using h0), findLastImpl_mk os n off i (by omega)]

theorem findLast_ok {v : Vec} {os : List Nat} {o : Nat} (hv : Holds v os) :
    findLast v (some o) = .ok (lastIndex (fun a => decide (a = o)) os) := by
  have hlen := length_ok hv
  rcases hv with ⟨rfl, rfl⟩ | ⟨n, rfl⟩
  · rfl
  · change Ptrv.length (some (mk os n)) = _ at hlen
    change findLast (some (mk os n)) _ = _
    rw [findLast, hlen, ok_bind, findLastImpl_mk os n 0 os.length (by omega)]
    simp

theorem containsLoop_mk {o : Nat} : ∀ (os : List Nat) (n : Nat), containsLoop o (mk os n) = .ok (decide (o ∈ os))
  | [], n => rfl
  | a :: os, n => by
    rw [mk_cons, containsLoop, load, ok_bind]
    dsimp only
    rw [containsLoop_mk os n]
    by_cases e : a = o
    · subst e; simp
    · rw [if_neg e]
      have e' : ¬ o = a := fun h => e h.symm
      simp [e']

theorem contains_ok {v : Vec} {os : List Nat} {o : Nat} (hv : Holds v os) :
    contains v (some o) = .ok (decide (o ∈ os)) := by
  rcases hv with ⟨rfl, rfl⟩ | ⟨n, rfl⟩
  · rfl
  · exact containsLoop_mk os n

theorem atLoop_eq : ∀ (b : Block) (i : Nat), atLoop b i = Strv.atLoop b i
  | _, 0 => rfl
  | b, i + 1 => by
    rw [atLoop, Strv.atLoop]
    congr 1
    funext p
    rw [atLoop_eq]

theorem at_ok {v : Vec} {os : List Nat} (hv : Holds v os) (i : Nat) : at_ v i = .ok os[i]? := by
  rw [← Strv.at_ok hv i]
  cases v with
  | none => rfl
  | some b => exact atLoop_eq b i

theorem first_ok {v : Vec} {os : List Nat} (hv : Holds v os) : first v = .ok os.head? := by
  rcases hv with ⟨rfl, rfl⟩ | ⟨n, rfl⟩
  · rfl
  · cases os <;> rfl

theorem lastLoop_eq : ∀ b : Block, lastLoop b = Strv.lastLoop b
  | [] => rfl
  | c :: t => by rw [lastLoop, Strv.lastLoop, lastLoop_eq t]

theorem last_ok {v : Vec} {os : List Nat} (hv : Holds v os) : last v = .ok os.getLast? := by
  rw [← Strv.last_ok hv]
  cases v with
  | none => rfl
  | some b => rw [last, Strv.last, lastLoop_eq]

theorem equalLoop_mk : ∀ (os qs : List Nat) (n m : Nat), equalLoop (mk os n) (mk qs m) = .ok (decide (os = qs))
  | [], [], n, m => rfl
  | [], q :: qs, n, m => rfl
  | o :: os, [], n, m => rfl
  | o :: os, q :: qs, n, m => by
    rw [mk_cons, mk_cons, equalLoop, load, ok_bind, deref_zero, load, ok_bind]
    by_cases e : o = q
    · subst e
      rw [if_pos (by simp), List.drop_one, List.tail_cons, equalLoop_mk os qs]
      simp
    · rw [if_neg (by simpa using e)]
      simp [e]

theorem equal_ok {v w : Vec} {os qs : List Nat} (hv : Holds v os) (hw : Holds w qs) (same : Bool)
    (hs : same = true → v = w) : equal same v w = .ok (decide (os = qs)) := by
  have hlv := length_ok hv
  have hlw := length_ok hw
  cases same with
  | true =>
    have := hs rfl
    subst this
    have : os = qs := by
      rcases hv with ⟨rfl, rfl⟩ | ⟨n, rfl⟩
      · rcases hw with ⟨-, rfl⟩ | ⟨m, h⟩
        · rfl
        · cases h
      · rcases hw with ⟨h, -⟩ | ⟨m, h⟩
        · cases h
        · rw [hlv] at hlw
          have hl : os.length = qs.length := by simpa using hlw
          have h2 := List.append_inj_left (Option.some.inj h) (by simpa using hl)
          exact (List.map_inj_right (fun a b hab => by simpa using hab)).1 h2
    unfold equal
    rw [if_pos rfl, decide_eq_true this]
  | false =>
    rcases hv with ⟨rfl, rfl⟩ | ⟨n, rfl⟩
    · rcases hw with ⟨rfl, rfl⟩ | ⟨m, rfl⟩
      · rfl
      · cases qs <;> rfl
    · rcases hw with ⟨rfl, rfl⟩ | ⟨m, rfl⟩
      · cases os <;> rfl
      · exact equalLoop_mk os qs n m

/-! ### Removal -/

theorem count_eraseIdx {os : List Nat} {k : Nat} (hk : k < os.length) (a : Nat) :
    (os.eraseIdx k).count a + (if a = os[k] then 1 else 0) = os.count a := by
  have e : os.count a = (os.take k).count a + (os.drop k).count a := by
    rw [← List.count_append, List.take_append_drop]
  rw [e, List.eraseIdx_eq_take_drop_succ, List.count_append, List.drop_eq_getElem_cons hk, count_cons']
  omega

theorem removeImpl_mk {c : Refs} {os : List Nat} {n pos : Nat} (hp : pos < os.length) (hc : Covered (cnt c) os) :
    ∃ c', removeImpl c (mk os n) pos os.length = .ok (c', mk (os.eraseIdx pos) 0) ∧
      Accounted (cnt c) (cnt c') os (os.eraseIdx pos) := by
  obtain ⟨b, hb, hr⟩ := memmove_mk os n pos hp
  have hpos : 0 < cnt c os[pos] := by
    have := hc os[pos]
    have h1 : 0 < os.count os[pos] := List.count_pos_iff.2 (List.getElem_mem _)
    omega
  obtain ⟨c1, h1, h1'⟩ := objUnref_ok hpos
  refine ⟨c1, ?_, ?_⟩
  · rw [removeImpl, deref_mk os n pos hp, ok_bind]
    dsimp only
    rw [h1, ok_bind, hb, ok_bind, hr]
  · intro a
    have := h1' a
    have := count_eraseIdx hp a
    omega

theorem removeLoop_mk {o : Nat} (pos : Nat) : ∀ (fuel : Nat) (c : Refs) (os : List Nat) (n l : Nat),
    l < fuel → Covered (cnt c) os → pos + l ≤ os.length →
    (∀ a ∈ os.take pos, decide (a = o) = false) → (∀ a ∈ os.drop (pos + l), decide (a = o) = false) →
    ∃ c' n', removeLoop pos o fuel c (mk os n) os.length l =
        .ok (c', mk (os.filter (fun a => decide (a ≠ o))) n') ∧
      Accounted (cnt c) (cnt c') os (os.filter (fun a => decide (a ≠ o)))
  | 0, _, _, _, _, hf, _, _, _, _ => by omega
  | fuel + 1, c, os, n, l, hf, hc, hpl, hpre, hpost => by
    rw [removeLoop, findLastImpl_mk os n pos l hpl, ok_bind]
    have hge := lastIndex_ge (p := fun a => decide (a = o)) (l := (os.drop pos).take l)
    by_cases h0 : lastIndex (fun a => decide (a = o)) ((os.drop pos).take l) < 0
    · rw [if_neg (by omega)]
      have hall : ∀ a ∈ os, decide (a = o) = false := by
        intro a ha
        rw [← List.take_append_drop pos os, List.mem_append] at ha
        rcases ha with ha | ha
        · exact hpre a ha
        · rw [← List.take_append_drop l (os.drop pos), List.mem_append, List.drop_drop] at ha
          rcases ha with ha | ha
          · exact lastIndex_neg.1 h0 a ha
          · exact hpost a ha
      have hf : os.filter (fun a => decide (a ≠ o)) = os :=
        List.filter_eq_self.2 (fun a ha => by simpa using hall a ha)
      exact ⟨c, n, by rw [hf], by rw [hf]; exact accounted_refl⟩
    · rw [if_pos (by omega)]
      obtain ⟨i, hi⟩ : ∃ i : Nat, lastIndex (fun a => decide (a = o)) ((os.drop pos).take l) = i :=
        ⟨_, (Int.toNat_of_nonneg (by omega)).symm⟩
      obtain ⟨⟨x, hx, hxm⟩, hafter⟩ := lastIndex_spec hi
      rw [hi, Int.toNat_natCast]
      have hil : i < l := by
        have := (List.getElem?_eq_some_iff.1 hx).1
        rw [List.length_take] at this
        omega
      have hk : pos + i < os.length := by omega
      have hxk : os[pos + i] = x := by
        rw [List.getElem?_take, if_pos hil, List.getElem?_drop, List.getElem?_eq_getElem hk] at hx
        exact Option.some.inj hx
      obtain ⟨c1, h1, h1'⟩ := removeImpl_mk (c := c) (n := n) hk hc
      rw [h1, ok_bind]
      dsimp only
      have hlen : (os.eraseIdx (pos + i)).length = os.length - 1 := by
        rw [List.length_eraseIdx, if_pos hk]
      rw [← hlen]
      have etake : (os.eraseIdx (pos + i)).take pos = os.take pos := by
        rw [List.eraseIdx_eq_take_drop_succ, List.take_append_of_le_length (by rw [List.length_take]; omega),
          List.take_take, Nat.min_eq_left (by omega)]
      have edrop : (os.eraseIdx (pos + i)).drop (pos + i) = os.drop (pos + i + 1) := by
        rw [List.eraseIdx_eq_take_drop_succ, List.drop_append_of_le_length (by rw [List.length_take]; omega),
          List.drop_of_length_le (by rw [List.length_take]; omega)]
        simp
      have ef : (os.eraseIdx (pos + i)).filter (fun a => decide (a ≠ o)) = os.filter (fun a => decide (a ≠ o)) :=
        filter_eraseIdx hk (by rw [hxk]; simpa using hxm)
      obtain ⟨c', n', hr, hacc⟩ := removeLoop_mk (o := o) pos fuel c1 (os.eraseIdx (pos + i)) 0 i (by omega)
        (covered_of hc h1') (by rw [hlen]; omega) (by rw [etake]; exact hpre)
        (by
          intro a ha
          rw [edrop] at ha
          have ha' : a ∈ (os.drop pos).drop (i + 1) := by
            rw [List.drop_drop]; exact ha
          rw [← List.take_append_drop l (os.drop pos), List.drop_append_of_le_length
            (by rw [List.length_take, List.length_drop]; omega), List.mem_append] at ha'
          rcases ha' with ha' | ha'
          · exact hafter a ha'
          · rw [List.drop_drop] at ha'
            exact hpost a ha')
      rw [ef] at hr hacc
      exact ⟨c', n', hr, accounted_trans h1' hacc⟩

theorem firstIndex_erase' {o : Nat} : ∀ {os : List Nat} {i : Nat}, firstIndex (fun a => decide (a = o)) os = i →
    os.erase o = os.eraseIdx i
  | [], i, h => by simp [firstIndex] at h
  | a :: os, i, h => by
    rw [firstIndex] at h
    by_cases e : a = o
    · subst e
      simp at h
      have : i = 0 := by omega
      subst this
      simp
    · rw [if_neg (by simpa using e)] at h
      split at h
      · omega
      · obtain ⟨k, rfl⟩ : ∃ k, i = k + 1 := ⟨i - 1, by omega⟩
        rw [List.erase_cons, if_neg (by simpa using e), List.eraseIdx_cons_succ, firstIndex_erase' (i := k) (by omega)]

theorem remove_ok {c : Refs} {v : Vec} {os : List Nat} {o : Nat} (all : Bool) (hv : Holds v os) (hc : Covered (cnt c) os) :
    ∃ c' v', remove c v (some o) all = .ok (c', v') ∧ Holds v' (Spec.without o all os) ∧
      Accounted (cnt c) (cnt c') os (Spec.without o all os) := by
  have hlen := length_ok hv
  have hfind := find_ok (o := o) hv
  have hv' := hv
  rcases hv with ⟨rfl, rfl⟩ | ⟨n, rfl⟩
  · refine ⟨c, none, rfl, .inl ⟨rfl, ?_⟩, ?_⟩
    · cases all <;> rfl
    · cases all <;> exact accounted_refl
  · change Ptrv.length (some (mk os n)) = _ at hlen
    change find (some (mk os n)) _ = _ at hfind
    change ∃ c' v', remove c (some (mk os n)) _ _ = _ ∧ _
    have hlt := firstIndex_lt (p := fun a => decide (a = o)) (l := os)
    by_cases h0 : firstIndex (fun a => decide (a = o)) os < 0
    · have hall := firstIndex_neg.1 h0
      have e : Spec.without o all os = os := by
        unfold Spec.without
        cases all with
        | true => exact List.filter_eq_self.2 (fun a ha => by simpa using hall a ha)
        | false => exact List.erase_of_not_mem (fun hm => by simpa using hall o hm)
      refine ⟨c, some (mk os n), ?_, by rw [e]; exact hv', by rw [e]; exact accounted_refl⟩
      rw [remove, hfind, ok_bind, if_neg (by omega)]
    · obtain ⟨k, hk⟩ : ∃ k : Nat, firstIndex (fun a => decide (a = o)) os = k := ⟨_, (Int.toNat_of_nonneg (by omega)).symm⟩
      obtain ⟨⟨x, hx, hxm⟩, hbefore⟩ := firstIndex_spec hk
      have hkl : k < os.length := by omega
      have hxk : os[k] = x := by
        rw [List.getElem?_eq_getElem hkl] at hx
        exact Option.some.inj hx
      have hle : (os.eraseIdx k).length = os.length - 1 := by
        rw [List.length_eraseIdx, if_pos hkl]
      obtain ⟨c1, h1, h1'⟩ := removeImpl_mk (c := c) (n := n) hkl hc
      have etake : (os.eraseIdx k).take k = os.take k := by
        rw [List.eraseIdx_eq_take_drop_succ, List.take_append_of_le_length (by rw [List.length_take]; omega),
          List.take_take, Nat.min_eq_left (by omega)]
      rw [remove, hfind, ok_bind, if_pos (by omega), hlen, ok_bind, hk, Int.toNat_natCast, h1, ok_bind]
      cases all with
      | false =>
        have e : Spec.without o false os = os.eraseIdx k := firstIndex_erase' hk
        rw [e]
        exact ⟨c1, some (mk (os.eraseIdx k) 0), rfl, .inr ⟨0, rfl⟩, h1'⟩
      | true =>
        obtain ⟨c', n', hr, hacc⟩ := removeLoop_mk (o := o) k ((os.eraseIdx k).length + 1) c1 (os.eraseIdx k) 0
          ((os.eraseIdx k).length - k) (by omega) (covered_of hc h1') (by omega) (by rw [etake]; exact hbefore)
          (by intro a ha; rw [List.drop_of_length_le (by omega)] at ha; simp at ha)
        have ef : (os.eraseIdx k).filter (fun a => decide (a ≠ o)) = Spec.without o true os :=
          filter_eraseIdx hkl (by rw [hxk]; simpa using hxm)
        rw [ef] at hr hacc
        refine ⟨c', some (mk (Spec.without o true os) n'), ?_, .inr ⟨n', rfl⟩, accounted_trans h1' hacc⟩
        simp only [if_true]
        rw [← hle, hr, ok_bind]

theorem removeAt_ok {c : Refs} {v : Vec} {os : List Nat} (pos : Nat) (hv : Holds v os) (hc : Covered (cnt c) os) :
    ∃ c' v', removeAt c v pos = .ok (c', v') ∧ Holds v' (os.eraseIdx pos) ∧
      Accounted (cnt c) (cnt c') os (os.eraseIdx pos) := by
  have hlen := length_ok hv
  have hv' := hv
  rcases hv with ⟨rfl, rfl⟩ | ⟨n, rfl⟩
  · exact ⟨c, none, rfl, .inl ⟨rfl, rfl⟩, accounted_refl⟩
  · change Ptrv.length (some (mk os n)) = _ at hlen
    change ∃ c' v', removeAt c (some (mk os n)) _ = _ ∧ _
    rw [removeAt, hlen, ok_bind]
    by_cases hp : pos < os.length
    · rw [if_pos hp]
      obtain ⟨c1, h1, h1'⟩ := removeImpl_mk (c := c) (n := n) hp hc
      rw [h1, ok_bind]
      exact ⟨c1, some (mk (os.eraseIdx pos) 0), rfl, .inr ⟨0, rfl⟩, h1'⟩
    · rw [if_neg hp, List.eraseIdx_of_length_le (by omega)]
      exact ⟨c, some (mk os n), rfl, hv', accounted_refl⟩

end Verif.Objv
