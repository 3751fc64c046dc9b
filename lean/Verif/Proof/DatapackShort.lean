import Verif.Proof.DatapackTlv
import Verif.Props.DatapackMbn
import Verif.Spec.DatapackShort

namespace Verif.Datapack
open Verif.C Spec

theorem digits_eq : ∀ f g : List Byte, f.length = g.length → val128 f = val128 g → f.map (fun b => b.toNat % 128) = g.map (fun b => b.toNat % 128) := by
  intro f
  induction f with
  | nil => intro g h _; cases g with | nil => rfl | cons b g => cases h
  | cons a f ih =>
    intro g hl hv
    cases g with
    | nil => cases hl
    | cons b g =>
      have hl : f.length = g.length := by simpa using hl
      simp only [val128, hl] at hv
      have h1 := val128_lt f
      have h2 := val128_lt g
      rw [hl] at h1
      have hp : 0 < 128 ^ g.length := Nat.pow_pos (by omega)
      have e1 : a.toNat % 128 = b.toNat % 128 := by
        have := congrArg (· / 128 ^ g.length) hv
        rwa [Nat.mul_comm, Nat.mul_add_div hp, Nat.div_eq_of_lt h1, Nat.mul_comm (b.toNat % 128), Nat.mul_add_div hp, Nat.div_eq_of_lt h2] at this
      rw [e1] at hv
      simp only [List.map_cons, e1, ih g hl (by omega)]

theorem cont_ext : ∀ f g : List Byte, (∀ b ∈ f, 128 ≤ b.toNat) → (∀ b ∈ g, 128 ≤ b.toNat) →
    f.map (fun b => b.toNat % 128) = g.map (fun b => b.toNat % 128) → f = g := by
  intro f
  induction f with
  | nil => intro g _ _ h; cases g with | nil => rfl | cons b g => cases h
  | cons a f ih =>
    intro g h1 h2 h
    cases g with
    | nil => cases h
    | cons b g =>
      simp only [List.map_cons, List.cons.injEq] at h
      have ea : a = b := by
        apply BitVec.eq_of_toNat_eq
        have := h1 a (by simp)
        have := h2 b (by simp)
        have := a.isLt
        have := b.isLt
        omega
      rw [ea, ih g (fun b hb => h1 b (by simp [hb])) (fun b hb => h2 b (by simp [hb])) h.2]

/-- A frame is determined by its length and value. -/
theorem frame_ext {f g : List Byte} (hf : IsFrame f) (hg : IsFrame g) (hl : f.length = g.length) (hv : val128 f = val128 g) : f = g := by
  have h := digits_eq f g hl hv
  obtain ⟨i, l, rfl, hi, hl1⟩ := hf
  obtain ⟨j, m, rfl, hj, hl2⟩ := hg
  simp only [List.map_append, List.map_cons, List.map_nil] at h
  have hij : (i.map fun b => b.toNat % 128).length = (j.map fun b => b.toNat % 128).length := by
    simpa using hl
  obtain ⟨h1, h2⟩ := List.append_inj h hij
  rw [cont_ext i j hi hj h1]
  have : l = m := by
    apply BitVec.eq_of_toNat_eq
    simp only [List.cons.injEq, and_true] at h2
    omega
  rw [this]

theorem pow128_mono {a b : Nat} (h : a ≤ b) : 128 ^ a ≤ 128 ^ b := Nat.pow_le_pow_right (by omega) h

/-- Frames of the same number: the one of the shortest length isn't longer, and it's the same one if the other one is short too. -/
theorem short_iff {f g : List Byte} {v : BitVec 64} (hf : UFrame f v.toNat) (hg : UFrame g v.toNat) (hgl : g.length = unsignedSize v) :
    g.length ≤ f.length ∧ (g = f ↔ Short f) := by
  obtain ⟨s1, s2, s3⟩ := unsignedSize_spec v
  have hlt := val128_lt f
  rw [hf.2.2.1] at hlt
  have h1 : 1 ≤ f.length := by obtain ⟨init, last, rfl, _⟩ := hf.1; simp
  have hle : g.length ≤ f.length := by rw [hgl]; exact s3 _ h1 hlt
  refine ⟨hle, ?_⟩
  have same : g = f ↔ f.length = unsignedSize v := by
    constructor
    · intro h; rw [← h, hgl]
    · intro h; exact frame_ext hg.1 hf.1 (by omega) (by rw [hg.2.2.1, hf.2.2.1])
  rw [same]
  unfold Short
  rcases frame_cases hf.1 with ⟨b, rfl, hb⟩ | ⟨msc, init, last, rfl, hm, hi, hl⟩
  · simp only [List.length_singleton] at hle hgl ⊢
    simp only [true_or, iff_true]
    omega
  · have hv : (msc.toNat % 128) * 128 ^ (init ++ [last]).length + val128 (init ++ [last]) = v.toNat := hf.2.2.1
    have hb := val128_lt (init ++ [last])
    have e : msc = 0x80#8 ↔ msc.toNat % 128 = 0 := by
      rw [← BitVec.toNat_inj]
      have := msc.isLt
      simp
      omega
    simp only [List.head?_cons, ne_eq, Option.some.injEq]
    rw [e]
    have hlen : (msc :: (init ++ [last])).length = (init ++ [last]).length + 1 := rfl
    have hpos : 1 ≤ (init ++ [last]).length := by simp
    rw [hlen] at hle ⊢
    generalize (init ++ [last]).length = n at *
    generalize val128 (init ++ [last]) = x at *
    constructor
    · intro hs
      refine .inr fun h0 => ?_
      rw [h0] at hv
      have := s3 n hpos (by omega)
      omega
    · rintro (h | h)
      · omega
      · have h3 : 128 ^ n ≤ v.toNat := by
          have := Nat.mul_le_mul_right (128 ^ n) (show 1 ≤ msc.toNat % 128 by omega)
          omega
        rcases Nat.lt_or_ge n (unsignedSize v) with h4 | h4
        · omega
        · have := pow128_mono h4
          omega

/-- The same for signed numbers -/
theorem sframe_ext {f g : List Byte} (hf : IsFrame f) (hg : IsFrame g) (hl : f.length = g.length) (hv : sval128 f = sval128 g) : f = g := by
  refine frame_ext hf hg hl ?_
  have h1 := val128_lt f
  have h2 := val128_lt g
  have hc : ((2 ^ (7 * g.length) : Nat) : Int) = (2 : Int) ^ (7 * g.length) := by simp
  rw [npow128] at h1 h2
  unfold sval128 at hv
  rw [hl] at hv h1
  generalize (2 : Int) ^ (7 * g.length) = p at *
  generalize 2 ^ (7 * g.length) = p at *
  split at hv <;> split at hv <;> omega

theorem fits_mono {v : Int} {a b : Nat} (h : a ≤ b) (hf : Fits v a) : Fits v b := by
  have := pow_mono (show 7 * a - 1 ≤ 7 * b - 1 by omega)
  unfold Fits at *
  omega

/-- When the first digit isn't needed -/
theorem fits_tail {a b : Byte} {bs : List Byte} (ha : 128 ≤ a.toNat) :
    Fits (sval128 (a :: b :: bs)) (b :: bs).length ↔ (a = 0x80#8 ∧ b.toNat % 128 < 64) ∨ (a = 0xff#8 ∧ 64 ≤ b.toNat % 128) := by
  have s1 := sign_digit a (b :: bs)
  have s2 := sign_digit b bs
  have hlt := val128_lt (b :: bs)
  have ea : a = 0x80#8 ↔ a.toNat % 128 = 0 := by
    rw [← BitVec.toNat_inj]
    have := a.isLt
    simp
    omega
  have eb : a = 0xff#8 ↔ a.toNat % 128 = 127 := by
    rw [← BitVec.toNat_inj]
    have := a.isLt
    simp
    omega
  have hv : val128 (a :: b :: bs) = (a.toNat % 128) * 128 ^ (b :: bs).length + val128 (b :: bs) := rfl
  have hlen : (a :: b :: bs).length = (b :: bs).length + 1 := rfl
  have hlen2 : (b :: bs).length = bs.length + 1 := rfl
  have hp : (128 : Nat) ^ (b :: bs).length = 2 * 2 ^ (7 * (b :: bs).length - 1) := by
    rw [npow128, ← Nat.pow_succ', hlen2]
    congr 1
  have hq : (2 : Nat) ^ (7 * ((b :: bs).length + 1)) = 128 * (2 * 2 ^ (7 * (b :: bs).length - 1)) := by
    rw [← hp, ← npow128, Nat.pow_succ, Nat.mul_comm]
  have hqi : (2 : Int) ^ (7 * ((b :: bs).length + 1)) = 128 * (2 * 2 ^ (7 * (b :: bs).length - 1)) := by exact_mod_cast hq
  have hci : ((2 ^ (7 * (b :: bs).length - 1) : Nat) : Int) = (2 : Int) ^ (7 * (b :: bs).length - 1) := by simp
  rw [ea, eb]
  unfold Fits sval128
  rw [hlen, hqi]
  rw [← hlen2] at s2
  rw [hp] at hlt hv
  generalize hH : (2 : Nat) ^ (7 * (b :: bs).length - 1) = H at *
  rw [← hci]
  have hd : a.toNat % 128 < 128 := Nat.mod_lt _ (by omega)
  generalize a.toNat % 128 = d at *
  generalize val128 (b :: bs) = x at *
  generalize val128 (a :: b :: bs) = y at *
  generalize b.toNat % 128 = c at *
  have z1 : 1 ≤ d → 1 * (2 * H) ≤ d * (2 * H) := fun h => Nat.mul_le_mul_right _ h
  have z2 : d ≤ 126 → d * (2 * H) ≤ 126 * (2 * H) := fun h => Nat.mul_le_mul_right _ h
  have z3 : 127 ≤ d → d * (2 * H) = 127 * (2 * H) := fun h => by rw [show d = 127 by omega]
  have z4 : d = 0 → d * (2 * H) = 0 := fun h => by rw [h]; simp
  generalize d * (2 * H) = m at *
  by_cases h64 : d < 64
  · rw [if_pos (s1.2 h64)]
    rcases Nat.eq_zero_or_pos d with h0 | h0
    · have := z4 h0; omega
    · have := z1 h0; omega
  · rw [if_neg (fun h => h64 (s1.1 h))]
    rcases Nat.lt_or_ge d 127 with h0 | h0
    · have := z2 (by omega); omega
    · have := z3 h0; omega

theorem sshort_iff {f g : List Byte} {v : Int} (hf : SFrame f v) (hg : SFrame g v) (hgl : g.length = signedSize v) :
    g.length ≤ f.length ∧ (g = f ↔ SShort f) := by
  obtain ⟨s1, s2, s3⟩ := signedSize_spec v
  have h1 : 1 ≤ f.length := by obtain ⟨init, last, rfl, _⟩ := hf.1; simp
  have hfit : Fits v f.length := by
    have := sval_bounds h1
    rw [hf.2.2.1] at this
    exact this
  have hle : g.length ≤ f.length := by rw [hgl]; exact s3 _ h1 hfit
  refine ⟨hle, ?_⟩
  have same : g = f ↔ f.length = signedSize v := by
    constructor
    · intro h; rw [← h, hgl]
    · intro h; exact sframe_ext hg.1 hf.1 (by omega) (by rw [hg.2.2.1, hf.2.2.1])
  rw [same]
  unfold SShort
  rcases frame_cases hf.1 with ⟨b, rfl, hb⟩ | ⟨msc, init, last, rfl, hm, hi, hl⟩
  · simp only [List.length_singleton] at hle hgl ⊢
    constructor
    · intro _
      exact ⟨(fun b' rest h => by cases h), (fun b' rest h => by cases h)⟩
    · intro _; omega
  · obtain ⟨b, bs, e⟩ : ∃ b bs, init ++ [last] = b :: bs := by
      cases init with
      | nil => exact ⟨last, [], rfl⟩
      | cons x xs => exact ⟨x, xs ++ [last], rfl⟩
    rw [e] at hf hle ⊢
    have ht := fits_tail (a := msc) (b := b) (bs := bs) hm
    rw [hf.2.2.1] at ht
    have hlen : (msc :: b :: bs).length = (b :: bs).length + 1 := rfl
    rw [hlen] at hle ⊢
    have hpos : 1 ≤ (b :: bs).length := by simp
    constructor
    · intro hs
      have hn : ¬ Fits v (b :: bs).length := fun h => by have := s3 _ hpos h; omega
      rw [ht] at hn
      refine ⟨?_, ?_⟩
      · intro b' rest h
        cases h
        rcases Nat.lt_or_ge (b.toNat % 128) 64 with z | z
        · exact (hn (.inl ⟨rfl, z⟩)).elim
        · exact z
      · intro b' rest h
        cases h
        rcases Nat.lt_or_ge (b.toNat % 128) 64 with z | z
        · exact z
        · exact (hn (.inr ⟨rfl, z⟩)).elim
    · rintro ⟨z1, z2⟩
      have hn : ¬ Fits v (b :: bs).length := by
        rw [ht]
        rintro (⟨rfl, z⟩ | ⟨rfl, z⟩)
        · have := z1 b bs rfl; omega
        · have := z2 b bs rfl; omega
      rcases Nat.lt_or_ge (b :: bs).length (signedSize v) with h4 | h4
      · omega
      · exact (hn (fits_mono h4 s2)).elim

end Verif.Datapack
