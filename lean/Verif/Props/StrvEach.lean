import Verif.Props.Strv

/-!
# Adding several strings and stripping: C165
-/

namespace Verif.Strv
open Verif.C Spec

theorem add_each : ∀ (args : List Nat) (ts : List Str) {h : Heap} {v : Vec} {ps : List Nat}, Holds v ps → Strings h args ts →
    ∃ v', args.foldlM (fun (x : Heap × Vec) a => add x.1 x.2 (some a)) (h, v) = .ok (h ++ ts.map some, v') ∧
      Holds v' (ps ++ List.range' h.length args.length)
  | [], ts, h, v, ps, hv, hs => by
    have : ts = [] := by
      have := strings_length hs
      simpa using this.symm
    subst this
    exact ⟨v, by simp [pure, Except.pure], by simpa using hv⟩
  | a :: args, ts, h, v, ps, hv, hs => by
    cases ts with
    | nil => simp [Strings] at hs
    | cons t ts =>
      simp only [Strings, List.map_cons, List.cons.injEq] at hs
      obtain ⟨v', h1, h2⟩ := add_ok hs.1 hv
      obtain ⟨v'', k1, k2⟩ := add_each args ts (h := h ++ [some t]) h2 (by
        unfold Strings
        rw [← hs.2]
        refine List.map_congr_left (fun b hb => List.getElem?_append_left ?_)
        have hm : h[b]? ∈ ts.map (fun s => some (some s)) := by
          rw [← hs.2]; exact List.mem_map_of_mem hb
        obtain ⟨x, -, hx⟩ := List.mem_map.1 hm
        exact (List.getElem?_eq_some_iff.1 hx.symm).1)
      refine ⟨v'', ?_, ?_⟩
      · rw [List.foldlM_cons]
        dsimp only
        rw [h1]
        show List.foldlM _ _ _ = _
        rw [k1]
        simp
      · simpa [List.range'_succ] using k2

/-- **C165** `gutil_strv_addv` does what `gutil_strv_add` does if it's called for each of the strings: the same strings are allocated in the same
order, and the vector has the same pointers after that. (The strings may be those of the vector itself.) -/
theorem C165_several {h : Heap} {v : Vec} {ps : List Nat} {ss : List Str} (H : Owns h v ps ss) {a : Nat} {t : Str} (ht : h[a]? = some (some t))
    {args : List Nat} {ts : List Str} (hargs : Strings h args ts) :
    ∃ h' v1 v2 qs, addv h v (some a) args = .ok (h', v1) ∧
      (a :: args).foldlM (fun (x : Heap × Vec) a => add x.1 x.2 (some a)) (h, v) = .ok (h', v2) ∧
      Owns h' v1 qs (ss ++ t :: ts) ∧ Owns h' v2 qs (ss ++ t :: ts) := by
  obtain ⟨h', v1, h1, h2, -, -⟩ := C29_addv H ht hargs
  obtain ⟨v2, k1, k2⟩ := add_each (a :: args) (t :: ts) (h := h) H.holds (by
    unfold Strings at hargs ⊢
    rw [List.map_cons, List.map_cons, ht, hargs])
  obtain ⟨w, g1, g2⟩ := addv_ok ht hargs H.holds
  rw [h1] at g1
  cases g1
  exact ⟨_, v1, v2, _, h1, k1, h2, ⟨⟨k2, h2.strings⟩, h2.nodup⟩⟩

/-- **C165** Stripping at the end is enough: it doesn't matter whether the strings of the vector have been stripped before another one was added. -/
theorem C165_strip {h : Heap} {v : Vec} {ps : List Nat} {ss : List Str} (H : Owns h v ps ss) {a : Nat} {t : Str} (ht : h[a]? = some (some t)) :
    ∃ h1 v1 h2 k1 k2 w1 k3 qs ts,
      add h v (some a) = .ok (h1, v1) ∧ strip h1 v1 = .ok h2 ∧ Owns h2 v1 qs ts ∧
      strip h v = .ok k1 ∧ add k1 v (some a) = .ok (k2, w1) ∧ strip k2 w1 = .ok k3 ∧ Owns k3 w1 qs ts := by
  obtain ⟨h1, v1, e1, H1, -, -⟩ := C29_add H ht
  obtain ⟨h2, e2, H2, -, -⟩ := C35_strip H1
  obtain ⟨k1, e3, H3, l3, o3⟩ := C35_strip H
  have hk : ∃ t', k1[a]? = some (some t') ∧ Spec.strip t' = Spec.strip t := by
    by_cases ha : a ∈ ps
    · obtain ⟨i, hi⟩ := List.getElem?_of_mem ha
      obtain ⟨s, g1, g2⟩ := strings_getElem? H.strings hi
      obtain ⟨s', g3, g4⟩ := strings_getElem? H3.strings hi
      rw [ht] at g2
      cases g2
      rw [List.getElem?_map, g1] at g3
      cases g3
      exact ⟨_, g4, strip_idem t⟩
    · exact ⟨t, by rw [o3 a ha, ht], rfl⟩
  obtain ⟨t', hk1, hk2⟩ := hk
  obtain ⟨k2, w1, e4, H4, -, -⟩ := C29_add H3 hk1
  obtain ⟨k3, e5, H5, -, -⟩ := C35_strip H4
  refine ⟨h1, v1, h2, k1, k2, w1, k3, _, _, e1, e2, H2, e3, e4, e5, ?_⟩
  have e : (ss.map Spec.strip ++ [t']).map Spec.strip = (ss ++ [t]).map Spec.strip := by
    rw [List.map_append, List.map_append, List.map_map, show Spec.strip ∘ Spec.strip = Spec.strip from funext strip_idem]
    simp [hk2]
  rw [e, l3] at H5
  exact H5

/-- The conditions are met: the vector's own string is added, together with two others; and a string with blanks is added. -/
example : Owns exHeap exVec [0, 1, 2] [[97], [98], [97]] ∧ exHeap[1]? = some (some [98]) ∧ Strings exHeap [3, 0] [[97], [97]] ∧
    [1, 3, 0].foldlM (fun (x : Heap × Vec) a => add x.1 x.2 (some a)) (exHeap, exVec) =
      .ok (exHeap ++ [some [98], some [97], some [97]], some [.ptr 0, .ptr 1, .ptr 2, .ptr 4, .ptr 5, .ptr 6, .null]) :=
  ⟨exOwns, rfl, rfl, by decide +kernel⟩
example : Owns [some [32, 97, 10]] (some [.ptr 0, .null]) [0] [[32, 97, 10]] ∧
    add [some [32, 97, 10]] (some [.ptr 0, .null]) (some 0) = .ok ([some [32, 97, 10], some [32, 97, 10]], some [.ptr 0, .ptr 1, .null]) ∧
    strip [some [32, 97, 10], some [32, 97, 10]] (some [.ptr 0, .ptr 1, .null]) = .ok [some [97], some [97]] :=
  ⟨⟨⟨.inr ⟨0, rfl⟩, rfl⟩, by decide⟩, by decide +kernel, by decide +kernel⟩

end Verif.Strv
