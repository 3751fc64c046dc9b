import Verif.Proof.HistoryDecl
import Verif.Model.HistoryDebug

namespace Verif.History.Debug
open Verif.C Spec

theorem gassert_err {c : Prop} [Decidable c] (h : ¬ c) : gassert c = .error .assertFail := if_neg h

theorem gassert_pass {c : Prop} [Decidable c] (h : c) : gassert c = .ok () := if_pos h

theorem size_eq {lo : Int} {h : Hist} {l : List Sample} (mode : Mode) (now : Int) (v : View h l)
    (hs : Sorted l) (ht : TimeOk lo now) (hi0 : 0 < h.maxInterval) (hi : int64Min ≤ lo - h.maxInterval) :
    size mode h now =
      if (live h.maxInterval now l).length = 1 then .error .assertFail else History.size mode h now := by
  by_cases hne : l = []
  · subst hne
    have h2 := (v.empty rfl).2
    rw [size, if_neg (by omega), if_neg (by simp [live]), History.size, if_neg (by omega)]
  · obtain ⟨h', hf, v', e1, e2⟩ := flush_ok mode now v hne hs ht hi0 hi
    rw [size, if_pos (v.nonneg_iff.2 hne), hf, ok_bind, History.size, if_pos (v.nonneg_iff.2 hne), hf, ok_bind]
    dsimp only
    by_cases hn : live h.maxInterval now l = []
    · simp [hn]
    · obtain ⟨f0, f1, f2⟩ := v'.ends hn
      obtain ⟨l0, l1, -⟩ := v'.last hn
      have hfit := v'.fits
      have hp : 0 < (live h.maxInterval now l).length := List.length_pos_iff.2 hn
      have hix := idx_nat (i := (live h.maxInterval now l).length - 1) f0 f1 (by omega)
      rw [← f2] at hix
      have hmp := v'.maxPos
      simp only [if_pos (show decide (live h.maxInterval now l ≠ []) = true by simpa using hn)]
      by_cases hw : h'.first > h'.last
      · rw [if_pos hw, if_pos hw, if_neg (by split at hix <;> omega)]
      · rw [if_neg hw, if_neg hw]
        by_cases h1 : (live h.maxInterval now l).length = 1
        · rw [if_pos h1, gassert_err (by split at hix <;> omega)]; rfl
        · rw [if_neg h1, gassert_pass (by split at hix <;> omega)]; rfl

theorem exec_eq {mode : Mode} {n : Nat} {I V lo : Int} (P : Params mode n I V lo) {h : Hist} {l : List Sample}
    (g : Good mode n I V lo h l) (op : Op) (ho : OpOk mode n V lo op)
    (h1 : ∀ now, op = .size now → (live I now l).length ≠ 1) : exec mode h op = History.exec mode h op := by
  cases op with
  | size now =>
    have := size_eq mode now g.view g.sorted (ho.1 now rfl) (g.intv ▸ P.I0) (g.intv ▸ P.I1)
    rw [g.intv, if_neg (h1 now rfl)] at this
    exact this
  | _ => rfl

theorem run_eq {mode : Mode} {n : Nat} {I V lo : Int} (P : Params mode n I V lo) :
    ∀ (ops : List Op) {h : Hist} {l : List Sample}, Good mode n I V lo h l → (∀ op ∈ ops, OpOk mode n V lo op) →
      (∀ pre now, pre ++ [Op.size now] <+: ops → (live I now (contents n I l pre)).length ≠ 1) →
      run mode h ops = History.run mode h ops
  | [], _, _, _, _, _ => rfl
  | op :: ops, h, l, g, ho, h1 => by
    obtain ⟨o, h2, hx, g1, -⟩ := sim P g op (ho op (by simp))
    have ih := run_eq P ops g1 (fun op hop => ho op (by simp [hop])) (by
      intro pre now hp
      exact h1 (op :: pre) now (by simpa using hp))
    have e := exec_eq P g op (ho op (by simp)) (by
      rintro now rfl
      exact h1 [] now (by simp))
    rw [run, History.run, e, hx, ok_bind, ok_bind]
    dsimp only
    rw [ih]

end Verif.History.Debug
