import Verif.Proof.HistoryExact
import Verif.Spec.HistoryMean

namespace Verif.History
open Verif.C Spec

/-! ## Accuracy -/

theorem tdiv_near {x d : Int} (hd : 0 < d) : x - d < d * x.tdiv d ∧ d * x.tdiv d < x + d := by
  have h1 := Int.mul_tdiv_add_tmod x d
  have h2 : x.tmod d < d := Int.tmod_lt_of_pos x hd
  have h3 : -d < x.tmod d := by
    have := Int.tmod_lt_of_pos (-x) hd
    rw [Int.neg_tmod] at this
    omega
  omega

theorem tdiv2_near (x : Int) : x - 1 ≤ 2 * x.tdiv 2 ∧ 2 * x.tdiv 2 ≤ x + 1 := by
  have := tdiv_near (x := x) (d := 2) (by decide)
  omega

theorem tdiv2_below {x : Int} (h : 0 ≤ x) : 0 ≤ x.tdiv 2 ∧ 2 * x.tdiv 2 ≤ x := by
  have h1 := Int.mul_tdiv_add_tmod x 2
  have h2 := Int.tmod_nonneg 2 h
  have h3 := Int.tdiv_nonneg h (b := 2) (by decide)
  omega

/-- Trapezoids aren't truncated by more than a half, and there aren't more of them than the time. -/
theorem area_near : ∀ {l : List Sample}, Sorted l → area2 l - duration l ≤ 2 * area l ∧ 2 * area l ≤ area2 l + duration l
  | [], _ => by simp [area, area2, duration]
  | [_], _ => by simp [area, area2, duration]
  | a :: b :: t, h => by
    have ih := area_near (List.Pairwise.of_cons h)
    have hab : a.time < b.time := (List.pairwise_cons.1 h).1 b (by simp)
    have := tdiv2_near ((b.time - a.time) * (a.value + b.value))
    simp only [area, area2, duration]
    omega

theorem average_two {l : List Sample} (h : 2 ≤ l.length) : average l = (area l).tdiv (duration l) := by
  match l, h with
  | a :: b :: t, _ => rfl

theorem duration_two {l : List Sample} (hs : Sorted l) (h : 2 ≤ l.length) : 0 < duration l := by
  match l, h, hs with
  | a :: b :: t, _, hs => exact duration_pos hs

theorem average_near {l : List Sample} (hs : Sorted l) (h : 2 ≤ l.length) : Near l (average l) := by
  have hd := duration_two hs h
  have h1 := area_near hs
  have h2 := tdiv_near (x := area l) hd
  rw [← average_two h] at h2
  unfold Near
  have e : 2 * duration l * average l = 2 * (duration l * average l) := Int.mul_assoc _ _ _
  rw [e]
  omega

theorem area_below : ∀ {l : List Sample}, Sorted l → (∀ s ∈ l, 0 ≤ s.value) → 0 ≤ area l ∧ 2 * area l ≤ area2 l
  | [], _, _ => by simp [area, area2]
  | [_], _, _ => by simp [area, area2]
  | a :: b :: t, h, hv => by
    have ih := area_below (List.Pairwise.of_cons h) (fun s hs => hv s (List.mem_cons_of_mem _ hs))
    have hab : a.time < b.time := (List.pairwise_cons.1 h).1 b (by simp)
    have ha := hv a (by simp)
    have hb := hv b (by simp)
    have hp : 0 ≤ (b.time - a.time) * (a.value + b.value) := Int.mul_nonneg (by omega) (by omega)
    have := tdiv2_below hp
    simp only [area, area2]
    omega

theorem average_below {l : List Sample} (hs : Sorted l) (h : 2 ≤ l.length) (hv : ∀ s ∈ l, 0 ≤ s.value) :
    0 ≤ average l ∧ 2 * duration l * average l ≤ area2 l := by
  have hd := duration_two hs h
  obtain ⟨h1, h2⟩ := area_below hs hv
  have e : 2 * duration l * average l = 2 * (duration l * average l) := Int.mul_assoc _ _ _
  have h3 := Int.mul_tdiv_add_tmod (area l) (duration l)
  have h4 := Int.tmod_nonneg (duration l) h1
  have h5 := Int.tdiv_nonneg h1 (Int.le_of_lt hd)
  rw [← average_two h] at h3 h5
  rw [e]
  omega

/-! ## Larger values -/

/-- The same times, and values which are the same or larger. -/
def SamplesLe : List Sample → List Sample → Prop
  | [], [] => True
  | a :: s, b :: t => (a.time = b.time ∧ a.value ≤ b.value) ∧ SamplesLe s t
  | _, _ => False

theorem SamplesLe.length : ∀ {l m : List Sample}, SamplesLe l m → l.length = m.length
  | [], [], _ => rfl
  | _ :: _, _ :: _, h => by simp [SamplesLe.length h.2]

theorem SamplesLe.live {I now : Int} : ∀ {l m : List Sample}, SamplesLe l m → SamplesLe (live I now l) (live I now m)
  | [], [], _ => trivial
  | a :: s, b :: t, h => by
    have ih := SamplesLe.live (I := I) (now := now) h.2
    unfold Spec.live at ih ⊢
    rw [List.filter_cons, List.filter_cons, h.1.1]
    split
    · exact ⟨h.1, ih⟩
    · exact ih

theorem SamplesLe.drop : ∀ {l m : List Sample} (k : Nat), SamplesLe l m → SamplesLe (l.drop k) (m.drop k)
  | _, _, 0, h => h
  | [], [], _ + 1, _ => trivial
  | _ :: _, _ :: _, k + 1, h => SamplesLe.drop k h.2

theorem SamplesLe.lastN {l m : List Sample} (n : Nat) (h : SamplesLe l m) : SamplesLe (lastN n l) (lastN n m) := by
  unfold Spec.lastN
  rw [h.length]
  exact h.drop _

theorem SamplesLe.concat : ∀ {l m : List Sample} {a b : Sample}, SamplesLe l m → a.time = b.time → a.value ≤ b.value →
    SamplesLe (l ++ [a]) (m ++ [b])
  | [], [], _, _, _, h1, h2 => ⟨⟨h1, h2⟩, trivial⟩
  | _ :: _, _ :: _, _, _, h, h1, h2 => ⟨h.1, SamplesLe.concat h.2 h1 h2⟩

/-- Both are empty, or both end with such samples. -/
theorem SamplesLe.ends : ∀ {l m : List Sample}, SamplesLe l m →
    (l = [] ∧ m = []) ∨ ∃ l' m' a b, l = l' ++ [a] ∧ m = m' ++ [b] ∧ SamplesLe l' m' ∧ a.time = b.time ∧ a.value ≤ b.value
  | [], [], _ => .inl ⟨rfl, rfl⟩
  | a :: s, b :: t, h => by
    right
    rcases SamplesLe.ends h.2 with ⟨rfl, rfl⟩ | ⟨l', m', x, y, rfl, rfl, h1, h2, h3⟩
    · exact ⟨[], [], a, b, rfl, rfl, trivial, h.1.1, h.1.2⟩
    · exact ⟨a :: l', b :: m', x, y, rfl, rfl, ⟨h.1, h1⟩, h2, h3⟩

theorem SamplesLe.record {l m : List Sample} {n : Nat} {v w now : Int} (h : SamplesLe l m) (hv : v ≤ w) :
    SamplesLe (record n l v now) (record n m w now) := by
  rcases h.ends with ⟨rfl, rfl⟩ | ⟨l', m', a, b, rfl, rfl, h1, h2, h3⟩
  · exact ⟨⟨rfl, hv⟩, trivial⟩
  · unfold Spec.record
    simp only [List.getLast?_append, List.getLast?_singleton, Option.some_or, List.dropLast_concat, h2]
    split
    · exact (h.concat (a := ⟨now, v⟩) (b := ⟨now, w⟩) rfl hv).lastN n
    · exact h1.concat (a := ⟨b.time, v⟩) (b := ⟨b.time, w⟩) rfl hv

theorem SamplesLe.duration : ∀ {l m : List Sample}, SamplesLe l m → duration l = duration m
  | [], [], _ => rfl
  | [_], [_], _ => rfl
  | a :: b :: s, c :: d :: t, h => by
    have ih := SamplesLe.duration (l := b :: s) (m := d :: t) h.2
    simp only [Spec.duration, ih, h.1.1, h.2.1.1]

theorem SamplesLe.area : ∀ {l m : List Sample}, SamplesLe l m → Sorted l → area l ≤ area m
  | [], [], _, _ => by simp [Spec.area]
  | [_], [_], _, _ => by simp [Spec.area]
  | a :: b :: s, c :: d :: t, h, hs => by
    have ih := SamplesLe.area (l := b :: s) (m := d :: t) h.2 (List.Pairwise.of_cons hs)
    have hab : a.time < b.time := (List.pairwise_cons.1 hs).1 b (by simp)
    obtain ⟨⟨h1, h2⟩, ⟨h3, h4⟩, -⟩ := h
    have hp : (b.time - a.time) * (a.value + b.value) ≤ (d.time - c.time) * (c.value + d.value) := by
      rw [h1, h3]
      exact Int.mul_le_mul_of_nonneg_left (by omega) (by omega)
    have := Int.tdiv_le_tdiv (c := 2) (by decide) hp
    simp only [Spec.area]
    omega

theorem SamplesLe.average : ∀ {l m : List Sample}, SamplesLe l m → Sorted l → average l ≤ average m
  | [], [], _, _ => by simp [Spec.average]
  | [_], [_], h, _ => h.1.2
  | a :: b :: s, c :: d :: t, h, hs => by
    have h1 := h.area hs
    have h2 := h.duration
    show (Spec.area (a :: b :: s)).tdiv (Spec.duration (a :: b :: s)) ≤ (Spec.area (c :: d :: t)).tdiv (Spec.duration (c :: d :: t))
    rw [← h2]
    exact Int.tdiv_le_tdiv (duration_pos hs) h1

theorem SamplesLe.nil {l m : List Sample} (h : SamplesLe l m) : l = [] ↔ m = [] := by
  have := h.length
  rw [← List.length_eq_zero_iff, ← List.length_eq_zero_iff, this]

theorem le_next {n : Nat} {I : Int} {l m : List Sample} {a b : Op} (h : SamplesLe l m) (hab : OpLe a b) :
    SamplesLe (next n I l a) (next n I m b) := by
  cases a <;> cases b <;> simp only [OpLe] at hab
  · subst hab; exact h.live
  · subst hab; exact h.live
  · trivial
  · obtain ⟨h1, rfl⟩ := hab; exact h.live.record h1
  · obtain ⟨-, rfl⟩ := hab; exact h.live

theorem le_result {n : Nat} {I : Int} {l m : List Sample} {a b : Op} (h : SamplesLe l m) (hs : Sorted l) (hab : OpLe a b) :
    if a.averages then result n I l a ≤ result n I m b else result n I l a = result n I m b := by
  cases a <;> cases b <;> simp only [OpLe] at hab
  · subst hab
    simp only [Op.averages, result, Bool.false_eq_true, if_false, h.live.length]
  · rename_i t u
    subst hab
    have hl := h.live (I := I) (now := t)
    simp only [Op.averages, result, Bool.false_eq_true, if_false]
    revert hl
    generalize live I t l = x
    generalize live I t m = y
    intro hl
    match x, y, hl with
    | [], [], _ => rfl
    | _ :: _, _ :: _, hl => simp only [hl.1.1]
  · simp [Op.averages, result]
  · obtain ⟨h1, rfl⟩ := hab
    simp only [Op.averages, result, if_true]
    exact (h.live.record h1).average (record_sorted (live_sorted _ _ hs))
  · obtain ⟨h1, rfl⟩ := hab
    rename_i t _
    simp only [Op.averages, result, if_true]
    by_cases e : live I t l = []
    · rw [if_pos e, if_pos (h.live.nil.1 e)]
      exact h1
    · rw [if_neg e, if_neg (fun q => e (h.live.nil.2 q))]
      exact h.live.average (live_sorted _ _ hs)

theorem le_results {n : Nat} {I : Int} : ∀ {as bs : List Op} {l m : List Sample}, SamplesLe l m → Sorted l → OpsLe as bs →
    AllLe as (results n I l as) (results n I m bs)
  | [], [], _, _, _, _, _ => trivial
  | _ :: _, _ :: _, _, _, h, hs, hab => ⟨le_result h hs hab.1, le_results (le_next h hab.1) (next_sorted _ hs) hab.2⟩

/-! ## Opposite values -/

def negS (s : Sample) : Sample := ⟨s.time, -s.value⟩

theorem neg_live {I now : Int} (l : List Sample) : live I now (l.map negS) = (live I now l).map negS := by
  unfold live
  rw [List.filter_map]
  rfl

theorem map_lastN {f : Sample → Sample} {n : Nat} (l : List Sample) : lastN n (l.map f) = (lastN n l).map f := by
  unfold lastN
  rw [List.length_map, List.map_drop]

theorem neg_record {n : Nat} {l : List Sample} {v now : Int} : record n (l.map negS) (-v) now = (record n l v now).map negS := by
  unfold record
  rw [List.getLast?_map]
  cases l.getLast? with
  | none => rfl
  | some s =>
    simp only [Option.map_some]
    have e : (negS s).time = s.time := rfl
    rw [e]
    split
    · rw [← map_lastN, List.map_append]
      rfl
    · rw [List.map_append, ← List.map_dropLast]
      rfl

theorem neg_duration : ∀ (l : List Sample), duration (l.map negS) = duration l
  | [] => rfl
  | [_] => rfl
  | a :: b :: t => by
    have ih := neg_duration (b :: t)
    simp only [List.map_cons, duration] at ih ⊢
    rw [ih]
    rfl

theorem neg_area : ∀ (l : List Sample), area (l.map negS) = - area l
  | [] => rfl
  | [_] => rfl
  | a :: b :: t => by
    have ih := neg_area (b :: t)
    simp only [List.map_cons, area] at ih ⊢
    rw [ih]
    have e : ((negS b).time - (negS a).time) * ((negS a).value + (negS b).value) = - ((b.time - a.time) * (a.value + b.value)) := by
      show (b.time - a.time) * (-a.value + -b.value) = _
      rw [← Int.neg_add, Int.mul_neg]
    rw [e, Int.neg_tdiv]
    omega

theorem neg_average : ∀ (l : List Sample), average (l.map negS) = - average l
  | [] => rfl
  | [_] => rfl
  | a :: b :: t => by
    have h1 := neg_area (a :: b :: t)
    have h2 := neg_duration (a :: b :: t)
    show (area ((a :: b :: t).map negS)).tdiv (duration ((a :: b :: t).map negS)) = - (area (a :: b :: t)).tdiv (duration (a :: b :: t))
    rw [h1, h2, Int.neg_tdiv]

theorem neg_next {n : Nat} {I : Int} {l : List Sample} (op : Op) : next n I (l.map negS) op.neg = (next n I l op).map negS := by
  cases op <;> simp only [Op.neg, next, neg_live, neg_record, List.map_nil]

theorem neg_result {n : Nat} {I : Int} {l : List Sample} (op : Op) :
    result n I (l.map negS) op.neg = if op.averages then - result n I l op else result n I l op := by
  cases op with
  | size t => simp only [Op.neg, result, neg_live, List.length_map, Op.averages, Bool.false_eq_true, if_false]
  | interval t =>
    simp only [Op.neg, result, neg_live, Op.averages, Bool.false_eq_true, if_false]
    cases live I t l <;> rfl
  | clear => rfl
  | add v t => simp only [Op.neg, result, neg_live, neg_record, neg_average, Op.averages, if_true]
  | median d t =>
    simp only [Op.neg, result, neg_live, neg_average, Op.averages, if_true, List.map_eq_nil_iff]
    split <;> rfl

theorem neg_results {n : Nat} {I : Int} : ∀ (ops : List Op) (l : List Sample),
    results n I (l.map negS) (ops.map Op.neg) = negResults ops (results n I l ops)
  | [], _ => rfl
  | op :: ops, l => by
    simp only [List.map_cons, results, negResults, neg_result, neg_next, neg_results ops]

/-! ## Another time -/

def laterS (d : Int) (s : Sample) : Sample := ⟨s.time + d, s.value⟩

theorem later_live {I now d : Int} (l : List Sample) : live I (now + d) (l.map (laterS d)) = (live I now l).map (laterS d) := by
  unfold live
  rw [List.filter_map]
  refine congrArg _ (List.filter_congr (fun s _ => ?_))
  show decide (now + d - I ≤ s.time + d) = decide (now - I ≤ s.time)
  exact decide_eq_decide.2 (by omega)

theorem later_record {n : Nat} {l : List Sample} {v now d : Int} : record n (l.map (laterS d)) v (now + d) = (record n l v now).map (laterS d) := by
  unfold record
  rw [List.getLast?_map]
  cases l.getLast? with
  | none => rfl
  | some s =>
    simp only [Option.map_some]
    have e : (laterS d s).time = s.time + d := rfl
    rw [e]
    by_cases h : s.time < now
    · rw [if_pos h, if_pos (by omega), ← map_lastN, List.map_append]
      rfl
    · rw [if_neg h, if_neg (by omega), List.map_append, ← List.map_dropLast]
      rfl

theorem later_duration {d : Int} : ∀ (l : List Sample), duration (l.map (laterS d)) = duration l
  | [] => rfl
  | [_] => rfl
  | a :: b :: t => by
    have ih := later_duration (d := d) (b :: t)
    simp only [List.map_cons, duration] at ih ⊢
    rw [ih]
    simp only [laterS]
    omega

theorem later_area {d : Int} : ∀ (l : List Sample), area (l.map (laterS d)) = area l
  | [] => rfl
  | [_] => rfl
  | a :: b :: t => by
    have ih := later_area (d := d) (b :: t)
    simp only [List.map_cons, area] at ih ⊢
    rw [ih]
    have e : (laterS d b).time - (laterS d a).time = b.time - a.time := by simp only [laterS]; omega
    rw [e]
    rfl

theorem later_average {d : Int} : ∀ (l : List Sample), average (l.map (laterS d)) = average l
  | [] => rfl
  | [_] => rfl
  | a :: b :: t => by
    have h1 := later_area (d := d) (a :: b :: t)
    have h2 := later_duration (d := d) (a :: b :: t)
    show (area ((a :: b :: t).map (laterS d))).tdiv (duration ((a :: b :: t).map (laterS d))) = (area (a :: b :: t)).tdiv (duration (a :: b :: t))
    rw [h1, h2]

theorem later_next {n : Nat} {I d : Int} {l : List Sample} (op : Op) : next n I (l.map (laterS d)) (op.later d) = (next n I l op).map (laterS d) := by
  cases op <;> simp only [Op.later, next, later_live, later_record, List.map_nil]

theorem later_result {n : Nat} {I d : Int} {l : List Sample} (op : Op) : result n I (l.map (laterS d)) (op.later d) = result n I l op := by
  cases op with
  | size t => simp only [Op.later, result, later_live, List.length_map]
  | interval t =>
    simp only [Op.later, result, later_live]
    cases live I t l with
    | nil => rfl
    | cons s _ => simp only [List.map_cons, laterS]; omega
  | clear => rfl
  | add v t => simp only [Op.later, result, later_live, later_record, later_average]
  | median v t => simp only [Op.later, result, later_live, later_average, List.map_eq_nil_iff]

theorem later_results {n : Nat} {I d : Int} : ∀ (ops : List Op) (l : List Sample),
    results n I (l.map (laterS d)) (ops.map (Op.later d)) = results n I l ops
  | [], _ => rfl
  | op :: ops, l => by
    simp only [List.map_cons, results, later_result, later_next, later_results ops]

theorem later_areaFits {d : Int} : ∀ (l : List Sample) (sum : Int), AreaFits sum (l.map (laterS d)) ↔ AreaFits sum l
  | [], _ => Iff.rfl
  | [_], _ => Iff.rfl
  | a :: b :: t, sum => by
    have e : (laterS d b).time - (laterS d a).time = b.time - a.time := by simp only [laterS]; omega
    have ev : (laterS d a).value + (laterS d b).value = a.value + b.value := rfl
    have ih := later_areaFits (d := d) (b :: t) (sum + ((b.time - a.time) * (a.value + b.value)).tdiv 2)
    rw [List.map_cons] at ih
    simp only [List.map_cons, AreaFits, e, ev, ih]

theorem later_opFits {n : Nat} {I d : Int} {l : List Sample} (op : Op) : OpFits n I (l.map (laterS d)) (op.later d) ↔ OpFits n I l op := by
  cases op <;> simp only [Op.later, OpFits, later_live, later_record, later_areaFits]

theorem later_fits {n : Nat} {I d : Int} : ∀ (ops : List Op) (l : List Sample),
    RunFits n I (l.map (laterS d)) (ops.map (Op.later d)) ↔ RunFits n I l ops
  | [], _ => Iff.rfl
  | op :: ops, l => by
    simp only [List.map_cons, RunFits, later_opFits, later_next, later_fits ops]

/-! ## The conditions -/

theorem clockOk_neg {I : Int} {ops : List Op} (h : ClockOk I ops) : ClockOk I (ops.map Op.neg) := by
  obtain ⟨lo, h1, h2⟩ := h
  refine ⟨lo, h1, fun o ho now e => ?_⟩
  obtain ⟨op, hop, rfl⟩ := List.mem_map.1 ho
  exact h2 op hop now (by cases op <;> exact e)

theorem sizeOk_neg {n : Nat} {ops : List Op} (h : SizeOk n ops) : SizeOk n (ops.map Op.neg) :=
  h.imp id (fun q o ho => by
    obtain ⟨op, hop, rfl⟩ := List.mem_map.1 ho
    have := q op hop
    cases op <;> exact this)

theorem le_mem : ∀ {as bs : List Op}, OpsLe as bs → ∀ b ∈ bs, ∃ a ∈ as, OpLe a b
  | [], [], _, _, h => by simp at h
  | a :: s, c :: t, h, b, hb => by
    rcases List.mem_cons.1 hb with rfl | hb
    · exact ⟨a, by simp, h.1⟩
    · obtain ⟨x, h1, h2⟩ := le_mem h.2 b hb
      exact ⟨x, List.mem_cons_of_mem _ h1, h2⟩

theorem clockOk_le {I : Int} {as bs : List Op} (hab : OpsLe as bs) (h : ClockOk I as) : ClockOk I bs := by
  obtain ⟨lo, h1, h2⟩ := h
  refine ⟨lo, h1, fun b hb now e => ?_⟩
  obtain ⟨a, ha, h3⟩ := le_mem hab b hb
  refine h2 a ha now ?_
  cases a <;> cases b <;> simp_all [OpLe, Op.now?]

theorem sizeOk_le {n : Nat} {as bs : List Op} (hab : OpsLe as bs) (h : SizeOk n as) : SizeOk n bs :=
  h.imp id (fun q b hb => by
    obtain ⟨a, ha, h3⟩ := le_mem hab b hb
    have := q a ha
    cases a <;> cases b <;> simp_all [OpLe, Op.isSize])

/-! ## The least accurate average -/

/-- 0, 1, 2, 1, 2, 1... -/
def zig (k : Nat) : Int := if k = 0 then 0 else if k % 2 = 1 then 1 else 2

def zigs (m : Nat) : List Sample := (List.range m).map (fun (k : Nat) => ⟨k, zig k⟩)

theorem zigs_succ (m : Nat) : zigs (m + 1) = zigs m ++ [⟨m, zig m⟩] := by
  simp [zigs, List.range_succ]

theorem zigs_time {m : Nat} {s : Sample} (h : s ∈ zigs m) : 0 ≤ s.time ∧ s.time < m := by
  simp only [zigs, List.mem_map, List.mem_range] at h
  obtain ⟨k, hk, rfl⟩ := h
  dsimp only
  omega

theorem zigs_contents {n : Nat} {I : Int} : ∀ (m : Nat), m ≤ n → (m : Int) ≤ I + 1 →
    contents n I [] ((List.range m).map (fun (k : Nat) => Op.add (zig k) k)) = zigs m
  | 0, _, _ => rfl
  | m + 1, h1, h2 => by
    have ih := zigs_contents (n := n) (I := I) m (by omega) (by omega)
    rw [List.range_succ, List.map_append, List.map_singleton, contents_append, ih]
    simp only [next]
    rw [live_all (fun s hs => by have := zigs_time hs; omega), zigs_succ]
    cases m with
    | zero => rfl
    | succ k =>
      unfold record
      rw [zigs_succ k]
      simp only [List.getLast?_append, List.getLast?_singleton, Option.some_or]
      rw [if_pos (by omega)]
      refine lastN_of_le ?_
      simp [zigs]
      omega

theorem area_concat : ∀ (l : List Sample) (a b : Sample),
    area (l ++ [a] ++ [b]) = area (l ++ [a]) + ((b.time - a.time) * (a.value + b.value)).tdiv 2
  | [], a, b => by simp [area]
  | [x], a, b => by simp [area]
  | x :: y :: t, a, b => by
    have ih := area_concat (y :: t) a b
    simp only [List.cons_append, area] at ih ⊢
    omega

theorem area2_concat : ∀ (l : List Sample) (a b : Sample),
    area2 (l ++ [a] ++ [b]) = area2 (l ++ [a]) + (b.time - a.time) * (a.value + b.value)
  | [], a, b => by simp [area2]
  | [x], a, b => by simp [area2]
  | x :: y :: t, a, b => by
    have ih := area2_concat (y :: t) a b
    simp only [List.cons_append, area2] at ih ⊢
    omega

theorem duration_concat : ∀ (l : List Sample) (a b : Sample),
    duration (l ++ [a] ++ [b]) = duration (l ++ [a]) + (b.time - a.time)
  | [], a, b => by simp [duration]
  | [x], a, b => by simp [duration]
  | x :: y :: t, a, b => by
    have ih := duration_concat (y :: t) a b
    simp only [List.cons_append, duration] at ih ⊢
    omega

theorem zigs_sums : ∀ (m : Nat), area (zigs (m + 2)) = m ∧ area2 (zigs (m + 2)) = 3 * m + 1 ∧ duration (zigs (m + 2)) = m + 1
  | 0 => by decide
  | m + 1 => by
    obtain ⟨h1, h2, h3⟩ := zigs_sums m
    have e : zigs (m + 1 + 2) = zigs (m + 1) ++ [⟨(m + 1 : Nat), zig (m + 1)⟩] ++ [⟨(m + 2 : Nat), zig (m + 2)⟩] := by
      rw [zigs_succ, zigs_succ]
    have e' : zigs (m + 2) = zigs (m + 1) ++ [⟨(m + 1 : Nat), zig (m + 1)⟩] := zigs_succ _
    have hz : zig (m + 1) + zig (m + 2) = 3 := by
      unfold zig
      by_cases h : (m + 1) % 2 = 1
      · rw [if_neg (by omega), if_pos h, if_neg (by omega), if_neg (by omega)]; rfl
      · rw [if_neg (by omega), if_neg h, if_neg (by omega), if_pos (by omega)]; rfl
    have ht : ((m + 2 : Nat) : Int) - ((m + 1 : Nat) : Int) = 1 := by omega
    rw [e, area_concat, area2_concat, duration_concat, ← e', h1, h2, h3]
    dsimp only
    rw [hz, ht]
    have h32 : ((1 : Int) * 3).tdiv 2 = 1 := by decide
    rw [h32]
    refine ⟨?_, ?_, ?_⟩ <;> omega

end Verif.History
