import Verif.Props.MoreTruth
import Verif.Spec.Sensitivity

/-!
# C117: how much single users can change a report
-/

namespace Irspack.Props
open Irspack Spec Evaluation Sampled

variable {S : Type} [LinearOrder S] [OrderBot S] {us as bs changed : List Nat} {gt : Nat → List Nat}
  {score score' : Nat → ScoreRow S} {allowed seen seen' : Nat → Nat → Prop} {nItems cutoff : Nat} {capped : Bool}
  {d e a b : MetricDict}

theorem sum_apart (us changed : List Nat) (f g : Nat → ℝ) (hsame : ∀ u ∈ us, u ∉ changed → f u = g u)
    (hone : ∀ u, |f u - g u| ≤ 1) : |(us.map f).sum - (us.map g).sum| ≤ us.countP (fun u => decide (u ∈ changed)) := by
  induction us with
  | nil => simp
  | cons u us ih =>
    have h1 := ih (fun v hv => hsame v (List.mem_cons_of_mem _ hv))
    rw [List.map_cons, List.map_cons, List.sum_cons, List.sum_cons]
    have h2 : |f u + (us.map f).sum - (g u + (us.map g).sum)| ≤ |f u - g u| + |(us.map f).sum - (us.map g).sum| := by
      rw [show f u + (us.map f).sum - (g u + (us.map g).sum) = (f u - g u) + ((us.map f).sum - (us.map g).sum) by ring]
      exact abs_add_le _ _
    by_cases hu : u ∈ changed
    · rw [List.countP_cons_of_pos (by simpa using hu)]
      push_cast
      linarith [hone u]
    · rw [List.countP_cons_of_neg (by simpa using hu)]
      have h3 : |f u - g u| = 0 := by rw [hsame u (by simp) hu, sub_self, abs_zero]
      linarith

theorem listFor_nodup (score : Nat → ScoreRow S) (allowed seen : Nat → Nat → Prop) (nItems cutoff u : Nat) :
    (listFor score allowed seen nItems cutoff u).Nodup := by
  obtain ⟨C, _, h⟩ := listFor_isTopK score allowed seen nItems cutoff u
  exact pairwise_before_nodup h.sorted

theorem listFor_length (score : Nat → ScoreRow S) (allowed seen : Nat → Nat → Prop) (nItems cutoff u : Nat) :
    (listFor score allowed seen nItems cutoff u).length ≤ cutoff := by
  obtain ⟨C, _, h⟩ := listFor_isTopK score allowed seen nItems cutoff u
  rw [h.length]
  exact Nat.min_le_left _ _

theorem abs_sub_unit {x y : ℝ} (hx : 0 ≤ x ∧ x ≤ 1) (hy : 0 ≤ y ∧ y ≤ 1) : |x - y| ≤ 1 := by
  rw [abs_le]
  constructor <;> linarith [hx.1, hx.2, hy.1, hy.2]

/-- C117.  Two evaluations that differ in the scores and masks of some users only: no accuracy metric differs by more than
the number of these users over the number of valid users. -/
theorem C117_changed_users (hd : ReportOn us gt score allowed seen nItems cutoff capped d)
    (he : ReportOn us gt score' allowed seen' nItems cutoff capped e)
    (hsame : ∀ u ∈ us, u ∉ changed → score u = score' u ∧ ∀ i, seen u i ↔ seen' u i) (hv : 0 < d.validUser) :
    AccuracyWithin (us.countP (fun u => decide (u ∈ changed)) / d.validUser) d e := by
  classical
  have rd := reportOn_isReport hd
  have re := reportOn_isReport he
  have hlist : ∀ u ∈ us, u ∉ changed →
      listFor score allowed seen nItems cutoff u = listFor score' allowed seen' nItems cutoff u := by
    intro u hu hc
    obtain ⟨h1, h2⟩ := hsame u hu hc
    unfold listFor
    rw [h1]
    simp only [h2]
  have key : ∀ φ : List Nat → Finset Nat → ℝ,
      (∀ L G, L.Nodup → G.Nonempty → 0 ≤ φ L G ∧ φ L G ≤ 1) →
      |meanOver us.length (fun k => ((us[k]?).map (relevant gt allowed)).getD ∅)
          (fun k => φ (((us[k]?).map (listFor score allowed seen nItems cutoff)).getD [])
            (((us[k]?).map (relevant gt allowed)).getD ∅)) -
        meanOver us.length (fun k => ((us[k]?).map (relevant gt allowed)).getD ∅)
          (fun k => φ (((us[k]?).map (listFor score' allowed seen' nItems cutoff)).getD [])
            (((us[k]?).map (relevant gt allowed)).getD ∅))| ≤
        us.countP (fun u => decide (u ∈ changed)) / d.validUser := by
    intro φ hφ
    have h1 := mean_times us (relevant gt allowed) (listFor score allowed seen nItems cutoff) φ
    have h2 := mean_times us (relevant gt allowed) (listFor score' allowed seen' nItems cutoff) φ
    rw [← rd.validUser] at h1 h2
    rw [le_div_iff₀ hv, ← abs_of_pos hv, ← abs_mul, sub_mul, mul_comm _ d.validUser, h1,
      mul_comm _ d.validUser, h2]
    refine sum_apart us changed _ _ ?_ ?_
    · intro u hu hc
      simp only [hlist u hu hc]
    · intro u
      split_ifs with hne
      · exact abs_sub_unit (hφ _ _ (listFor_nodup _ _ _ _ _ _) hne) (hφ _ _ (listFor_nodup _ _ _ _ _ _) hne)
      · simp
  refine ⟨?_, ?_, ?_, ?_, ?_⟩
  · rw [rd.hit, re.hit]; exact key Spec.hit (fun L G hn hg => (spec_unit_interval hn hg capped).1)
  · rw [rd.precision, re.precision]; exact key Spec.precision (fun L G hn hg => (spec_unit_interval hn hg capped).2.1)
  · rw [rd.recall, re.recall]
    exact key (Spec.recall capped) (fun L G hn hg => (spec_unit_interval hn hg capped).2.2.1)
  · rw [rd.ndcg, re.ndcg]; exact key Spec.ndcg (fun L G hn hg => (spec_unit_interval hn hg capped).2.2.2.1)
  · rw [rd.map, re.map]; exact key averagePrecision (fun L G hn hg => (spec_unit_interval hn hg capped).2.2.2.2)

theorem reportOn_unit (hd : ReportOn us gt score allowed seen nItems cutoff capped d) :
    (0 ≤ d.hit ∧ d.hit ≤ 1) ∧ (0 ≤ d.precision ∧ d.precision ≤ 1) ∧ (0 ≤ d.recall ∧ d.recall ≤ 1) ∧
      (0 ≤ d.ndcg ∧ d.ndcg ≤ 1) ∧ (0 ≤ d.map ∧ d.map ≤ 1) := by
  obtain ⟨_, _, _, _, _, _, _, ev, chunks, cutoffs, ds, j, p, hev, hds, _, _, hp, rfl, _⟩ := hd
  exact (C05_C13_python_bounds hev chunks cutoffs ds hds p (List.mem_of_getElem? hp)).1

theorem added_apart {x y z m n l : ℝ} (hl : l = m + n) (hn : 0 ≤ n) (hpos : 0 < l) (h : l * z = m * x + n * y)
    (hx : 0 ≤ x ∧ x ≤ 1) (hy : 0 ≤ y ∧ y ≤ 1) : |z - x| ≤ n / l := by
  have h1 : l * (z - x) = n * (y - x) := by rw [mul_sub, h, hl]; ring
  rw [le_div_iff₀ hpos, ← abs_of_pos hpos, ← abs_mul, mul_comm, h1, abs_mul, abs_of_nonneg hn]
  have := mul_le_mul_of_nonneg_left (abs_sub_unit hy hx) hn
  linarith

/-- C117.  Adding users changes no accuracy metric by more than the share of the valid users that are new. -/
theorem C117_added_users (hp : us.Perm (as ++ bs)) (hd : ReportOn us gt score allowed seen nItems cutoff capped d)
    (ha : ReportOn as gt score allowed seen nItems cutoff capped a)
    (hb : ReportOn bs gt score allowed seen nItems cutoff capped b) (hv : 0 < d.validUser) :
    AccuracyWithin (b.validUser / d.validUser) d a := by
  have h := C113_groups_combine hp hd ha hb
  obtain ⟨a1, a2, a3, a4, a5⟩ := reportOn_unit ha
  obtain ⟨b1, b2, b3, b4, b5⟩ := reportOn_unit hb
  have hn : 0 ≤ b.validUser := by rw [(reportOn_isReport hb).validUser]; exact Nat.cast_nonneg _
  exact ⟨added_apart h.validUser hn hv h.hit a1 b1, added_apart h.validUser hn hv h.precision a2 b2,
    added_apart h.validUser hn hv h.recall a3 b3, added_apart h.validUser hn hv h.ndcg a4 b4,
    added_apart h.validUser hn hv h.map a5 b5⟩

/-- C117.  The number of items that appear differs by at most the cutoff times the number of users whose scores or masks
differ. -/
theorem C117_appeared_items (hd : ReportOn us gt score allowed seen nItems cutoff capped d)
    (he : ReportOn us gt score' allowed seen' nItems cutoff capped e)
    (hsame : ∀ u ∈ us, u ∉ changed → score u = score' u ∧ ∀ i, seen u i ↔ seen' u i) :
    |d.appearedItem - e.appearedItem| ≤ cutoff * us.countP (fun u => decide (u ∈ changed)) := by
  classical
  have oneway : ∀ {s s' : Nat → ScoreRow S} {m m' : Nat → Nat → Prop} {x y : MetricDict},
      ReportOn us gt s allowed m nItems cutoff capped x → ReportOn us gt s' allowed m' nItems cutoff capped y →
      (∀ u ∈ us, u ∉ changed → s u = s' u ∧ ∀ i, m u i ↔ m' u i) →
      x.appearedItem ≤ y.appearedItem + cutoff * us.countP (fun u => decide (u ∈ changed)) := by
    intro s s' m m' x y hx hy hs
    have rx := reportOn_isReport hx
    have ry := reportOn_isReport hy
    rw [rx.appearedItem, ry.appearedItem]
    unfold appeared
    have hsub : (Finset.range nItems).filter (fun i => recommendedCount us.length
          (fun k => ((us[k]?).map (listFor s allowed m nItems cutoff)).getD [])
          (fun k => ((us[k]?).map (relevant gt allowed)).getD ∅) i ≠ 0) ⊆
        (Finset.range nItems).filter (fun i => recommendedCount us.length
          (fun k => ((us[k]?).map (listFor s' allowed m' nItems cutoff)).getD [])
          (fun k => ((us[k]?).map (relevant gt allowed)).getD ∅) i ≠ 0) ∪
        ((us.filter (fun u => decide (u ∈ changed))).flatMap (listFor s allowed m nItems cutoff)).toFinset := by
      intro i hi
      rw [Finset.mem_union]
      rw [Finset.mem_filter] at hi
      have hi2 := hi.2
      rw [count_valid, ne_eq, List.sum_eq_zero_iff] at hi2
      push Not at hi2
      obtain ⟨z, hz, hz0⟩ := hi2
      obtain ⟨u, hu, rfl⟩ := List.mem_map.mp hz
      split_ifs at hz0 with hne
      · have hmem : i ∈ listFor s allowed m nItems cutoff u := List.count_pos_iff.mp (by omega)
        by_cases hc : u ∈ changed
        · right
          rw [List.mem_toFinset, List.mem_flatMap]
          exact ⟨u, List.mem_filter.mpr ⟨hu, by simpa using hc⟩, hmem⟩
        · left
          rw [Finset.mem_filter]
          refine ⟨hi.1, ?_⟩
          rw [count_valid, ne_eq, List.sum_eq_zero_iff]
          push Not
          refine ⟨_, List.mem_map.mpr ⟨u, hu, rfl⟩, ?_⟩
          rw [if_pos hne]
          obtain ⟨h1, h2⟩ := hs u hu hc
          have : listFor s' allowed m' nItems cutoff u = listFor s allowed m nItems cutoff u := by
            unfold listFor
            rw [h1]
            simp only [h2]
          rw [this]
          exact (List.count_pos_iff.mpr hmem).ne'
      · exact absurd rfl hz0
    have hlen : ((us.filter (fun u => decide (u ∈ changed))).flatMap (listFor s allowed m nItems cutoff)).length ≤
        cutoff * us.countP (fun u => decide (u ∈ changed)) := by
      rw [List.countP_eq_length_filter, List.length_flatMap, Nat.mul_comm]
      have := List.sum_le_card_nsmul ((us.filter (fun u => decide (u ∈ changed))).map
        (fun u => (listFor s allowed m nItems cutoff u).length)) cutoff (by
          intro z hz
          obtain ⟨u, _, rfl⟩ := List.mem_map.mp hz
          exact listFor_length _ _ _ _ _ _)
      simpa using this
    have hcard := ((Finset.card_le_card hsub).trans (Finset.card_union_le _ _)).trans
      (Nat.add_le_add_left ((List.toFinset_card_le _).trans hlen) _)
    exact_mod_cast hcard
  have h1 := oneway hd he hsame
  have h2 := oneway he hd (fun u hu hc => ⟨(hsame u hu hc).1.symm, fun i => ((hsame u hu hc).2 i).symm⟩)
  rw [abs_le]
  constructor <;> linarith

/-- the scores of C116, and those of the first model of C114 for user 0 -/
def scoreD : Nat → ScoreRow (WithBot Nat) := fun u => if u = 0 then scoreA u else scoreC u

/-- Two users with the relevant item 0.  Changing the scores of user 0 changes the hit rate from 1 to 1/2, the most that one
of two users can do. -/
example : ∃ d e : MetricDict,
    ReportOn [0, 1] (fun _ => [0]) scoreC (fun _ _ => True) (fun _ _ => False) 3 1 false d ∧
    ReportOn [0, 1] (fun _ => [0]) scoreD (fun _ _ => True) (fun _ _ => False) 3 1 false e ∧
    AccuracyWithin (1 / 2) d e ∧ |d.hit - e.hit| = 1 / 2 ∧ |d.appearedItem - e.appearedItem| ≤ 1 := by
  obtain ⟨d, hd⟩ := reportOn_exists [0, 1] (fun _ => [0]) scoreC 3 1 false (by decide) (by decide)
  obtain ⟨e, he⟩ := reportOn_exists [0, 1] (fun _ => [0]) scoreD 3 1 false (by decide) (by decide)
  have hv : d.validUser = 2 := by
    rw [(reportOn_isReport hd).validUser, card_valid]
    simp [all_relevant]
  have hs : ∀ u ∈ [0, 1], u ∉ [0] → scoreC u = scoreD u ∧ ∀ i : Nat, (False ↔ False) := by
    intro u _ hu
    rw [List.mem_singleton] at hu
    exact ⟨by simp [scoreD, hu], by simp⟩
  have h1 := C117_changed_users (changed := [0]) hd he hs (by rw [hv]; norm_num)
  have h2 := C117_appeared_items (changed := [0]) hd he hs
  have hcount : ([0, 1] : List Nat).countP (fun u => decide (u ∈ [0])) = 1 := by decide
  rw [hcount] at h1 h2
  have e1 := hit_of_pair hd (fun _ => trivial) 0 0 (scoreC_list 0) (scoreC_list 1)
  have e2 := hit_of_pair he (fun _ => trivial) 1 0
    (listFor_best _ _ _ _ _ _ (by decide) trivial id (by decide) (by
      intro j hj _ hne
      rcases (by omega : j = 0 ∨ j = 1 ∨ j = 2) with rfl | rfl | rfl <;> first | exact absurd rfl hne | decide))
    (listFor_best _ _ _ _ _ _ (by decide) trivial id (by decide) (by
      intro j hj _ hne
      rcases (by omega : j = 0 ∨ j = 1 ∨ j = 2) with rfl | rfl | rfl <;> first | exact absurd rfl hne | decide))
  norm_num at e1 e2
  refine ⟨d, e, hd, he, by simpa [hv] using h1, ?_, by simpa using h2⟩
  have : d.hit - e.hit = 1 / 2 := by linarith
  rw [this, abs_of_pos (by norm_num)]

end Irspack.Props
