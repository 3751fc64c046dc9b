import Verif.Model.MacrosCast

/-! # Layout of structures -/

namespace Verif.Macros
open Verif.C

theorem roundUp_ge {n a : Nat} (ha : 0 < a) : n ≤ roundUp n a := by
  unfold roundUp
  have h1 := Nat.div_add_mod (n + a - 1) a
  have h2 := Nat.mod_lt (n + a - 1) ha
  rw [Nat.mul_comm] at h1
  omega

theorem offsets_length (n : Nat) (fs : List Field) : (offsets n fs).length = fs.length := by
  induction fs generalizing n with
  | nil => rfl
  | cons f t ih => simp [offsets, ih]

theorem offsets_ge {fs : List Field} (hp : ∀ f ∈ fs, 0 < f.align) {n i o : Nat} (h : (offsets n fs)[i]? = some o) : n ≤ o := by
  induction fs generalizing n i with
  | nil => simp [offsets] at h
  | cons f t ih =>
    have h1 := roundUp_ge (n := n) (hp f (by simp))
    unfold offsets at h
    cases i with
    | zero => simp at h; omega
    | succ i =>
      simp only [List.getElem?_cons_succ] at h
      have := ih (fun f hf => hp f (by simp [hf])) h
      omega

theorem offsets_lt {fs : List Field} (hp : ∀ f ∈ fs, 0 < f.align) {n i j a b : Nat} {f : Field} (hij : i < j) (hf : fs[i]? = some f)
    (hi : (offsets n fs)[i]? = some a) (hj : (offsets n fs)[j]? = some b) : a + f.size ≤ b := by
  induction fs generalizing n i j with
  | nil => simp at hf
  | cons g t ih =>
    have hp' : ∀ f ∈ t, 0 < f.align := fun f hf => hp f (by simp [hf])
    unfold offsets at hi hj
    cases j with
    | zero => omega
    | succ j =>
      simp only [List.getElem?_cons_succ] at hj
      cases i with
      | zero =>
        simp at hi hf
        subst hf hi
        exact offsets_ge hp' hj
      | succ i =>
        simp only [List.getElem?_cons_succ] at hi hf
        exact ih hp' (by omega) hf hi hj

theorem offsetOf_lt {fs : List Field} (hp : ∀ f ∈ fs, 0 < f.align) {i j : Nat} {f : Field} (hij : i < j) (hj : j < fs.length) (hf : fs[i]? = some f) :
    offsetOf fs i + f.size ≤ offsetOf fs j := by
  have h1 : i < (offsets 0 fs).length := by rw [offsets_length]; omega
  have h2 : j < (offsets 0 fs).length := by rw [offsets_length]; omega
  have := offsets_lt hp hij hf (List.getElem?_eq_getElem h1) (List.getElem?_eq_getElem h2)
  unfold offsetOf
  rw [List.getElem?_eq_getElem h1, List.getElem?_eq_getElem h2]
  exact this

end Verif.Macros
