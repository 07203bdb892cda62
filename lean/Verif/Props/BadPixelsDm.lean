import Verif.Model.BadPixelsDm
import Verif.Props.BadPixelsFocal
import Verif.Props.DmRegBlind
import Verif.Props.SoftwareMask
import Verif.Props.Conjugate
import Verif.Props.PlateSolv

/-!
# Property C113 for the DM registration and the plate scale search
-/

namespace Coralign.Props

open Coralign Coralign.Spec

/-! ### Removing piston, tip and tilt -/

theorem pttN_shape (S : Solver) (nanFit : Option PyExc) (arr o : Arr2 (Fl ℝ)) (mask : Arr2 Bool)
    (e : removePistonTipTiltN S nanFit arr mask = .ok o) :
    arr.nr = mask.nr ∧ arr.nc = mask.nc ∧ o.nr = arr.nr ∧ o.nc = arr.nc := by
  classical
  unfold removePistonTipTiltN at e
  by_cases h : arr.nr = mask.nr ∧ arr.nc = mask.nc
  · rw [dif_pos h] at e
    refine ⟨h.1, h.2, ?_⟩
    simp only at e
    split_ifs at e
    · cases nanFit <;> cases e
      exact ⟨rfl, rfl⟩
    · cases e; exact ⟨rfl, rfl⟩
  · rw [dif_neg h] at e; cases e

theorem pttN_nan (S : Solver) (nanFit : Option PyExc) (arr o : Arr2 (Fl ℝ)) (mask : Arr2 Bool) (hn : HasNan arr)
    (e : removePistonTipTiltN S nanFit arr mask = .ok o) : HasNan o := by
  classical
  unfold removePistonTipTiltN at e
  by_cases h : arr.nr = mask.nr ∧ arr.nc = mask.nc
  · rw [dif_pos h] at e
    obtain ⟨i, j, hij⟩ := hn
    simp only at e
    split_ifs at e
    · cases nanFit <;> cases e
      exact ⟨i, j, rfl⟩
    · cases e
      exact ⟨i, j, by simp only; rw [hij, fl_nan_add, fl_mul_nan]⟩
  · rw [dif_neg h] at e; cases e

theorem pttN_nums (S : Solver) (nanFit : Option PyExc) (a : Arr2 ℝ) (mask : Arr2 Bool) :
    removePistonTipTiltN S nanFit a.nums mask = (removePistonTipTilt S a mask).map Arr2.nums := by
  classical
  unfold removePistonTipTiltN removePistonTipTilt
  by_cases h : a.nr = mask.nr ∧ a.nc = mask.nc
  · have h' : a.nums.nr = mask.nr ∧ a.nums.nc = mask.nc := h
    rw [dif_pos h', dif_pos h]
    simp only
    rw [if_neg (by rintro ⟨i, j, -, e⟩; cases e)]
    refine congrArg Except.ok (congrArg (Arr2.mk a.nr a.nc) (funext fun i => funext fun j => ?_))
    show Fl.num _ = Fl.num _
    congr 1
    unfold pttValues
    simp only
    generalize hp : pttCoeffs S a.val (fun i j => mask.val (i.cast h.1) (j.cast h.2)) = p
    change (if mask.val (i.cast h.1) (j.cast h.2) = true then (1 : ℝ) else 0) * (a.val i j +
      -(pttCoeffs S a.val (fun i j => mask.val (i.cast h.1) (j.cast h.2)) 0 * pttCoord a.nc j +
        pttCoeffs S a.val (fun i j => mask.val (i.cast h.1) (j.cast h.2)) 1 * pttCoord a.nr i +
        pttCoeffs S a.val (fun i j => mask.val (i.cast h.1) (j.cast h.2)) 2)) = _
    rw [hp]
    by_cases hk : mask.val (i.cast h.1) (j.cast h.2) = true
    · rw [if_pos hk, if_pos hk]; ring
    · rw [if_neg hk, if_neg hk]; ring
  · have h' : ¬ (a.nums.nr = mask.nr ∧ a.nums.nc = mask.nc) := h
    rw [dif_neg h', dif_neg h]; rfl

theorem subPxN_nan (a b : Arr2 (Fl ℝ)) (hr : a.nr = b.nr) (hc : a.nc = b.nc) (h : HasNan a ∨ HasNan b) : HasNan (subPxN a b) := by
  obtain ⟨n, m, f⟩ := a
  obtain ⟨n', m', g⟩ := b
  simp only at hr hc
  subst hr; subst hc
  rcases h with ⟨i, j, h⟩ | ⟨i, j, h⟩
  · exact ⟨i, j, by show f i j + _ = _; rw [show f i j = .nan from h, fl_nan_add]⟩
  · refine ⟨i, j, ?_⟩
    have e : (⟨n, m, g⟩ : Arr2 (Fl ℝ)).px ((i : ℕ) : ℤ) ((j : ℕ) : ℤ) = some (g i j) := Arr2.px_val (⟨n, m, g⟩ : Arr2 (Fl ℝ)) i j
    show f i j + (((⟨n, m, g⟩ : Arr2 (Fl ℝ)).px ((i : ℕ) : ℤ) ((j : ℕ) : ℤ)).getD 0).neg = _
    rw [e, show g i j = .nan from h]
    exact fl_add_nan _

theorem nums_px_getD (a : Arr2 ℝ) (i j : ℤ) : (a.nums.px i j).getD 0 = .num ((a.px i j).getD 0) := by
  unfold Arr2.nums
  rw [Arr2.px_map]
  cases a.px i j <;> rfl

theorem subPxN_nums (a b : Arr2 ℝ) : subPxN a.nums b.nums = (a.subPx b).nums := by
  refine congrArg (Arr2.mk a.nr a.nc) (funext fun i => funext fun j => ?_)
  show (Fl.num (a.val i j) : Fl ℝ) + ((b.nums.px (i : ℕ) (j : ℕ)).getD 0).neg = .num (a.val i j - (b.px (i : ℕ) (j : ℕ)).getD 0)
  rw [nums_px_getD, sub_eq_add_neg]
  rfl

theorem map_nan {f : ℝ → ℝ} (a : Arr2 (Fl ℝ)) (h : HasNan a) : HasNan (a.map (Fl.map f)) := by
  obtain ⟨i, j, h⟩ := h
  exact ⟨i, j, by show Fl.map f (a.val i j) = _; rw [h]; rfl⟩

/-! ### The measured phase change and the misfit -/

theorem measuredDiffN_nan (S : Solver) (nanFit : Option PyExc) (d : PhaseDataN) (hs : ¬ d.shapesDiffer) (h : HasNan d.ph0 ∨ HasNan d.ph1)
    (m : Arr2 (Fl ℝ)) (e : measuredDiffN S nanFit d = .ok m) : HasNan m ∧ m.nr = d.usable.nr ∧ m.nc = d.usable.nc := by
  unfold PhaseDataN.shapesDiffer at hs
  push Not at hs
  obtain ⟨⟨a1, a2⟩, ⟨b1, b2⟩, ⟨c1, c2⟩, d1, d2⟩ := hs
  unfold measuredDiffN at e
  obtain ⟨s1, s2, s3, s4⟩ := pttN_shape _ _ _ _ _ e
  exact ⟨pttN_nan _ _ _ _ _ (map_nan _ (subPxN_nan _ _ (by omega) (by omega) h.symm)) e, s3.trans s1, s4.trans s2⟩

theorem misfitN_nan (usable : Arr2 Bool) (meas sim : Arr2 (Fl ℝ)) (hr : meas.nr = usable.nr) (hc : meas.nc = usable.nc) (h : HasNan meas) :
    misfitN usable meas sim = .nan := by
  classical
  obtain ⟨n, m, f⟩ := usable
  obtain ⟨n', m', g⟩ := meas
  simp only at hr hc
  subst hr; subst hc
  obtain ⟨i, j, h⟩ := h
  unfold misfitN
  refine (fl_sum_nan _ _).mpr ⟨i, Finset.mem_univ _, (fl_sum_nan _ _).mpr ⟨j, Finset.mem_univ _, ?_⟩⟩
  have e : (⟨n', m', g⟩ : Arr2 (Fl ℝ)).px ((i : ℕ) : ℤ) ((j : ℕ) : ℤ) = some (g i j) := Arr2.px_val (⟨n', m', g⟩ : Arr2 (Fl ℝ)) i j
  rw [e, show g i j = .nan from h, Option.getD_some, fl_nan_add, fl_map_nan]
  exact fl_mul_nan _

theorem misfitN_nums (usable : Arr2 Bool) (meas sim : Arr2 ℝ) : misfitN usable meas.nums sim.nums = .num (misfit usable meas sim) := by
  unfold misfitN misfit
  rw [← fl_sum_num]
  refine Finset.sum_congr rfl fun i _ => ?_
  rw [← fl_sum_num]
  refine Finset.sum_congr rfl fun j _ => ?_
  rw [nums_px_getD, nums_px_getD]
  show Fl.num _ = Fl.num _
  congr 1
  show (if usable.val i j = true then (1 : ℝ) else 0) * |_ + -_| = _
  split_ifs
  · rw [one_mul, ← sub_eq_add_neg]; rfl
  · rw [zero_mul]

theorem measuredDiffN_nums (S : Solver) (nanFit : Option PyExc) (d : PhaseData) :
    measuredDiffN S nanFit ⟨d.amp0.nums, d.ph0.nums, d.amp1.nums, d.ph1.nums, d.usable⟩ = (measuredDiff S d).map Arr2.nums := by
  unfold measuredDiffN measuredDiff
  rw [← pttN_nums S nanFit]
  simp only
  rw [subPxN_nums]
  rfl

/-! ### The grids -/

theorem costGridN_nan (xs ys : List (Fl ℝ)) (cost : Fl ℝ → Fl ℝ → Res (Fl ℝ)) (hc : ∀ x y v, cost x y = .ok v → v = .nan) (hx : 0 < xs.length)
    (hy : 0 < ys.length) (c : Arr2 (Fl ℝ)) (h1 : costGridN xs ys cost = .ok c) : HasNan c := by
  unfold costGridN at h1
  cases h2 : ys.mapM fun y => xs.mapM fun x => cost x y with
  | error e => rw [h2] at h1; cases h1
  | ok rows =>
    rw [h2] at h1
    cases h1
    obtain ⟨hl, hall⟩ := mapM_all _ (fun row : List (Fl ℝ) => row.length = xs.length ∧ ∀ v ∈ row, v = .nan) _ (by
      intro y row hrow
      exact mapM_all _ (fun v => v = .nan) _ (fun x v => hc x y v) _ hrow) _ h2
    have hrow := hall (rows[0]'(by omega)) (List.getElem_mem _)
    refine ⟨⟨0, hy⟩, ⟨0, hx⟩, ?_⟩
    simp only
    have e0 : rows.getD 0 [] = rows[0]'(by omega) := List.getD_eq_getElem _ _ (by omega)
    rw [e0, List.getD_eq_getElem _ _ (by rw [hrow.1]; exact hx)]
    exact hrow.2 _ (List.getElem_mem _)

theorem gridFitN_nan (S : Solver) (nanFit : Option PyExc) (xs ys : List (Fl ℝ)) (c : Arr2 (Fl ℝ)) (h : HasNan c) (d : Fl ℝ × Fl ℝ)
    (e : gridFitN S nanFit xs ys c = .ok d) : d = (.nan, .nan) := by
  classical
  have hfit : gridFitN S nanFit xs ys c = (nanOutcome nanFit).map fun v => (v, v) := by
    unfold gridFitN
    cases allNums xs <;> cases allNums ys <;> simp only
    rw [if_pos h]
  rw [hfit] at e
  cases h2 : nanOutcome nanFit with
  | error x => rw [h2] at e; cases e
  | ok v =>
    rw [h2] at e
    have := nanOutcome_ok _ _ h2
    subst this
    cases e; rfl

theorem findOptimum1dN_nan (S : Solver) (nanFit : Option PyExc) (xs cs : List (Fl ℝ)) (h : Fl.nan ∈ cs) (d : Fl ℝ)
    (e : findOptimum1dN S nanFit xs cs = .ok d) : d = .nan := by
  unfold findOptimum1dN at e
  rw [allNums_nan cs h] at e
  split_ifs at e
  have : nanOutcome nanFit = .ok d := by
    revert e
    cases allNums xs <;> exact id
  exact nanOutcome_ok _ _ this

theorem costGridN_nums (xs ys : List ℝ) (cost : ℝ → ℝ → Res ℝ) (costN : Fl ℝ → Fl ℝ → Res (Fl ℝ))
    (hc : ∀ x y, costN (.num x) (.num y) = (cost x y).map .num) :
    costGridN (xs.map .num) (ys.map .num) costN = (costGrid xs ys cost).map Arr2.nums := by
  unfold costGridN costGrid
  rw [mapM_nums (Fl.num : ℝ → Fl ℝ) (List.map (Fl.num : ℝ → Fl ℝ)) (fun y => xs.mapM fun x => cost x y)
    (fun y => (xs.map (Fl.num : ℝ → Fl ℝ)).mapM fun x => costN x y) ys
    (fun y => mapM_nums Fl.num Fl.num (fun x => cost x y) (fun x => costN x (.num y)) xs fun x => hc x y), res_map_bind, res_bind_map]
  cases h1 : ys.mapM fun y => xs.mapM fun x => cost x y with
  | error e => rfl
  | ok rows =>
    obtain ⟨l1, l2⟩ := mapM_all _ (fun row : List ℝ => row.length = xs.length) _ (fun y row hrow =>
      (mapM_all _ (fun _ => True) _ (fun _ _ _ => trivial) _ hrow).1) _ h1
    refine congrArg Except.ok ?_
    unfold Arr2.nums Arr2.map
    simp only
    have e1 : (ys.map (Fl.num : ℝ → Fl ℝ)).length = ys.length := List.length_map _
    have e2 : (xs.map (Fl.num : ℝ → Fl ℝ)).length = xs.length := List.length_map _
    have key : ∀ (n m : ℕ) (hn : n = ys.length) (hm : m = xs.length),
        (⟨n, m, fun i j => ((rows.map (List.map (Fl.num : ℝ → Fl ℝ))).getD i []).getD j .nan⟩ : Arr2 (Fl ℝ)) =
          ⟨ys.length, xs.length, fun i j => .num ((rows.getD i []).getD j 0)⟩ := by
      rintro n m rfl rfl
      congr 1
      funext i j
      have hi : (i : ℕ) < rows.length := by rw [l1]; exact i.2
      have hj : (j : ℕ) < (rows[(i : ℕ)]).length := by rw [l2 _ (List.getElem_mem hi)]; exact j.2
      have e0 : (rows.map (List.map (Fl.num : ℝ → Fl ℝ))).getD i [] = (rows[(i : ℕ)]).map .num := by
        rw [List.getD_eq_getElem _ _ (by simpa using hi), List.getElem_map]
      rw [e0, List.getD_eq_getElem _ _ (by simpa using hj), List.getElem_map, List.getD_eq_getElem _ _ hi, List.getD_eq_getElem _ _ hj]
    exact key _ _ e1 e2

theorem costGrid_shape (xs ys : List ℝ) (cost : ℝ → ℝ → Res ℝ) (c : Arr2 ℝ) (h : costGrid xs ys cost = .ok c) :
    c.nr = ys.length ∧ c.nc = xs.length := by
  unfold costGrid at h
  cases h2 : ys.mapM fun y => xs.mapM fun x => cost x y with
  | error e => rw [h2] at h; cases h
  | ok rows => rw [h2] at h; cases h; exact ⟨rfl, rfl⟩

theorem gridFitN_nums (S : Solver) (nanFit : Option PyExc) (xs ys : List ℝ) (c : Arr2 ℝ) :
    gridFitN S nanFit (xs.map .num) (ys.map .num) c.nums = (gridFit S xs ys c).map fun p => (.num p.1, .num p.2) := by
  classical
  unfold gridFitN
  rw [allNums_nums, allNums_nums]
  simp only
  rw [if_neg (nums_no_nan c), denan_nums]

theorem gridArgminN_nums (xs ys : List ℝ) (c : Arr2 ℝ) (hr : 0 < c.nr) (hc : 0 < c.nc) : gridArgminN xs ys c.nums = gridArgmin xs ys c := by
  unfold gridArgminN gridArgmin
  simp only
  rw [show c.nums.map Fl.neg = (c.map fun v : ℝ => -v).nums from rfl, argmax2N_nums _ (by exact hr) (by exact hc)]

theorem lineArgminN_nums (xs cs : List ℝ) : lineArgminN xs (cs.map .num) = lineArgmin xs cs := by
  unfold lineArgminN lineArgmin
  rw [List.length_map, argmaxUptoN_num _ (fun k => -cs.getD k 0) _ (fun i _ => ?_)]
  have : (cs.map (Fl.num : ℝ → Fl ℝ)).getD i (.num 0) = .num (cs.getD i 0) := List.getD_map ..
  rw [this]; rfl

theorem findOptimum1dN_nums (S : Solver) (nanFit : Option PyExc) (xs cs : List ℝ) :
    findOptimum1dN S nanFit (xs.map .num) (cs.map .num) = (findOptimum1d S xs cs).map .num := by
  unfold findOptimum1dN
  rw [allNums_nums, allNums_nums]
  simp only [List.length_map]
  by_cases g1 : xs.length ≠ cs.length
  · rw [if_pos g1]; unfold findOptimum1d; rw [dif_pos g1]; rfl
  rw [if_neg g1]
  by_cases g2 : xs.length = 0
  · rw [if_pos g2]; unfold findOptimum1d; rw [dif_neg g1, if_pos g2]; rfl
  rw [if_neg g2]

/-! ### The loops -/

/-- Every cost the search can obtain is NaN. -/
def AllNan (cost : Fl ℝ → Fl ℝ → Res (Fl ℝ)) : Prop := ∀ x y v, cost x y = .ok v → v = .nan

theorem linspaceList_length (a b : ℝ) (n : ℕ) : (linspaceList a b n).length = n := by simp [linspaceList]

theorem offsetLoopN_nan (S : Solver) (nanFit : Option PyExc) (cost : Fl ℝ → Fl ℝ → Res (Fl ℝ)) (hc : AllNan cost) (t : ClockTuning)
    (hn : 0 < t.nOffset) (k iter : ℕ) (hi : iter ≠ 0 ∨ ¬ t.nIterOffset > 1 ∨ 1 < k) (v : List ℝ × List ℝ) (h1 : 0 < v.1.length) (h2 : 0 < v.2.length) (est : Fl ℝ × Fl ℝ)
    (r : (List ℝ × List ℝ) × (Fl ℝ × Fl ℝ)) (h : offsetLoopN S nanFit cost t k iter v est = .ok r) :
    (0 < r.1.1.length ∧ 0 < r.1.2.length) ∧ ((k = 0 ∧ r.2 = est) ∨ r.2 = (.nan, .nan)) := by
  induction k generalizing iter v est with
  | zero => cases h; exact ⟨⟨h1, h2⟩, Or.inl ⟨rfl, rfl⟩⟩
  | succ k ih =>
    rw [offsetLoopN] at h
    cases e1 : costGridN (v.1.map .num) (v.2.map .num) fun x y => cost (est.1 + x) (est.2 + y) with
    | error e => simp only [e1, bind, Except.bind] at h; cases h
    | ok c =>
      simp only [e1, bind, Except.bind] at h
      have hcn : HasNan c := costGridN_nan _ _ _ (fun x y v => hc _ _ v) (by simpa using h1) (by simpa using h2) _ e1
      have hw : 0 < ((linspaceList (-t.offsetMax) t.offsetMax t.nOffset.toNat).map fun z : ℝ => t.shrinkFac ^ iter * z).length := by
        rw [List.length_map, linspaceList_length]; omega
      by_cases hb : iter = 0 ∧ t.nIterOffset > 1
      · simp only [if_pos hb] at h
        obtain ⟨g1, g2⟩ := ih (iter + 1) (Or.inl (by omega)) _ hw hw _ h
        refine ⟨g1, Or.inr ?_⟩
        rcases g2 with ⟨g2, -⟩ | g2
        · rcases hi with hi | hi | hi
          · exact absurd hb.1 hi
          · exact absurd hb.2 hi
          · omega
        · exact g2
      · simp only [if_neg hb] at h
        cases e2 : gridFitN S nanFit (v.1.map .num) (v.2.map .num) c with
        | error e => simp only [e2] at h; cases h
        | ok d =>
          simp only [e2] at h
          have := gridFitN_nan _ _ _ _ _ hcn _ e2
          subst this
          obtain ⟨g1, g2⟩ := ih (iter + 1) (Or.inl (by omega)) _ hw hw _ h
          refine ⟨g1, Or.inr ?_⟩
          rcases g2 with ⟨-, g2⟩ | g2
          · rw [g2, fl_add_nan, fl_add_nan]
          · exact g2

theorem clockLoopN_nan (S : Solver) (nanFit : Option PyExc) (cost : Fl ℝ → Res (Fl ℝ)) (hc : ∀ x v, cost x = .ok v → v = .nan) (t : ClockTuning)
    (hn : 0 < t.nClock) (k iter : ℕ) (hi : iter ≠ 0 ∨ ¬ t.nIterClock > 1 ∨ 1 < k) (est r : Fl ℝ)
    (h : clockLoopN S nanFit cost t k iter est = .ok r) : (k = 0 ∧ r = est) ∨ r = .nan := by
  induction k generalizing iter est with
  | zero => cases h; exact Or.inl ⟨rfl, rfl⟩
  | succ k ih =>
    right
    rw [clockLoopN] at h
    simp only at h
    cases e1 : ((linspaceList (-t.clockMaxDeg) t.clockMaxDeg t.nClock.toNat).map fun z : ℝ => t.shrinkFac ^ iter * z).mapM fun z => cost (.num z + est) with
    | error e => simp only [e1, bind, Except.bind] at h; cases h
    | ok c =>
      simp only [e1, bind, Except.bind] at h
      obtain ⟨hl, hall⟩ := mapM_all _ (fun v => v = .nan) _ (fun z v => hc _ v) _ e1
      rw [List.length_map, linspaceList_length] at hl
      have hcn : Fl.nan ∈ c := by
        cases c with
        | nil => simp at hl; omega
        | cons a l => rw [hall a List.mem_cons_self]; exact List.mem_cons_self
      by_cases hb : iter = 0 ∧ t.nIterClock > 1
      · simp only [if_pos hb] at h
        rcases ih (iter + 1) (Or.inl (by omega)) _ h with ⟨g2, -⟩ | g2
        · rcases hi with hi | hi | hi
          · exact absurd hb.1 hi
          · exact absurd hb.2 hi
          · omega
        · exact g2
      · simp only [if_neg hb] at h
        cases e2 : findOptimum1dN S nanFit ((linspaceList (-t.clockMaxDeg) t.clockMaxDeg t.nClock.toNat).map .num) c with
        | error e => simp only [e2] at h; cases h
        | ok d =>
          simp only [e2] at h
          have := findOptimum1dN_nan _ _ _ _ hcn _ e2
          subst this
          rcases ih (iter + 1) (Or.inl (by omega)) _ h with ⟨-, g2⟩ | g2
          · rw [g2, fl_add_nan]
          · exact g2

theorem bothLoopN_nan (S : Solver) (nanFit : Option PyExc) (oCost cCost : Fl ℝ → Fl ℝ → Fl ℝ → Res (Fl ℝ)) (ho : ∀ th, AllNan (oCost th))
    (hcl : ∀ x y z v, cCost x y z = .ok v → v = .nan) (t : ClockTuning) (hn : 0 < t.nOffset) (hn' : 0 < t.nClock) (hi : 0 < t.nIterOffset)
    (hi' : 0 < t.nIterClock) (k : ℕ) (v : List ℝ × List ℝ) (h1 : 0 < v.1.length) (h2 : 0 < v.2.length) (est : Fl ℝ × Fl ℝ) (th : Fl ℝ)
    (r : Fl ℝ × Fl ℝ × Fl ℝ) (h : bothLoopN S nanFit oCost cCost t k v est th = .ok r) :
    (k = 0 ∧ r = (est.1, est.2, th)) ∨ r = (.nan, .nan, .nan) := by
  induction k generalizing v est th with
  | zero => cases h; exact Or.inl ⟨rfl, rfl⟩
  | succ k ih =>
    right
    rw [bothLoopN] at h
    cases e1 : offsetLoopN S nanFit (oCost th) t t.nIterOffset.toNat 0 v est with
    | error e => simp only [e1, bind, Except.bind] at h; cases h
    | ok a =>
      simp only [e1, bind, Except.bind] at h
      obtain ⟨⟨g1, g2⟩, g3⟩ := offsetLoopN_nan S nanFit _ (ho th) t hn _ 0 (by omega) v h1 h2 est a e1
      have g4 : a.2 = (.nan, .nan) := by
        rcases g3 with ⟨g3, -⟩ | g3
        · omega
        · exact g3
      cases e2 : clockLoopN S nanFit (cCost a.2.1 a.2.2) t t.nIterClock.toNat 0 th with
      | error e => simp only [e2] at h; cases h
      | ok th' =>
        simp only [e2] at h
        have g5 : th' = .nan := by
          rcases clockLoopN_nan S nanFit _ (fun x v => hcl _ _ x v) t hn' _ 0 (by omega) th th' e2 with ⟨g5, -⟩ | g5
          · omega
          · exact g5
        rcases ih a.1 g1 g2 a.2 th' h with ⟨-, e⟩ | e
        · rw [e, g4, g5]
        · exact e

theorem scaleLoopN_nan (S : Solver) (nanFit : Option PyExc) (cost : Fl ℝ → Fl ℝ → Res (Fl ℝ)) (hc : AllNan cost) (t : ScaleTuning)
    (hn : 0 < t.nScale) (k iter : ℕ) (hi : iter ≠ 0 ∨ ¬ t.nIter > 1 ∨ 1 < k) (delta : ℝ) (sc r : Fl ℝ × Fl ℝ)
    (h : scaleLoopN S nanFit cost t k iter delta sc = .ok r) : (k = 0 ∧ r = sc) ∨ r = (.nan, .nan) := by
  induction k generalizing iter delta sc with
  | zero => cases h; exact Or.inl ⟨rfl, rfl⟩
  | succ k ih =>
    right
    rw [scaleLoopN] at h
    simp only at h
    have hw : 0 < (linspaceList (1 - delta) (1 + delta) t.nScale.toNat).length := by rw [linspaceList_length]; omega
    cases e1 : costGridN ((linspaceList (1 - delta) (1 + delta) t.nScale.toNat).map .num) ((linspaceList (1 - delta) (1 + delta) t.nScale.toNat).map .num)
        fun x y => cost (x * sc.1) (y * sc.2) with
    | error e => simp only [e1, bind, Except.bind] at h; cases h
    | ok c =>
      simp only [e1, bind, Except.bind] at h
      have hcn : HasNan c := costGridN_nan _ _ _ (fun x y v => hc _ _ v) (by simpa using hw) (by simpa using hw) _ e1
      by_cases hb : iter = 0 ∧ t.nIter > 1
      · simp only [if_pos hb] at h
        rcases ih (iter + 1) (Or.inl (by omega)) _ _ h with ⟨g2, -⟩ | g2
        · rcases hi with hi | hi | hi
          · exact absurd hb.1 hi
          · exact absurd hb.2 hi
          · omega
        · exact g2
      · simp only [if_neg hb] at h
        cases e2 : gridFitN S nanFit ((linspaceList (1 - delta) (1 + delta) t.nScale.toNat).map .num) ((linspaceList (1 - delta) (1 + delta) t.nScale.toNat).map .num) c with
        | error e => simp only [e2] at h; cases h
        | ok d =>
          simp only [e2] at h
          have := gridFitN_nan _ _ _ _ _ hcn _ e2
          subst this
          rcases ih (iter + 1) (Or.inl (by omega)) _ _ h with ⟨-, g2⟩ | g2
          · rw [g2, fl_nan_mul, fl_nan_mul]
          · exact g2

/-! ### The functions -/

theorem clockCostN_nan (Sp : Spline) (R : Rotate) (T : Shift) (atNan : Fl ℝ → Fl ℝ → Fl ℝ → Res (Arr2 (Fl ℝ))) (usable : Arr2 Bool)
    (meas : Arr2 (Fl ℝ)) (hm : HasNan meas ∧ meas.nr = usable.nr ∧ meas.nc = usable.nc) (dmrad : Arr2 ℝ) (c : DmReg) (x y th v : Fl ℝ)
    (h : clockCostN Sp R T atNan usable meas dmrad c x y th = .ok v) : v = .nan := by
  unfold clockCostN at h
  generalize surfaceN atNan _ x y th = s at h
  cases s with
  | error e => cases h
  | ok s => cases h; exact misfitN_nan _ _ _ hm.2.1 hm.2.2 hm.1

theorem offsetCostN_nan (Sp : Spline) (R : Rotate) (T : Shift) (S : Solver) (nanFit : Option PyExc) (atNan : Fl ℝ → Fl ℝ → Fl ℝ → Res (Arr2 (Fl ℝ)))
    (usable : Arr2 Bool) (meas : Arr2 (Fl ℝ)) (hm : HasNan meas ∧ meas.nr = usable.nr ∧ meas.nc = usable.nc) (dmrad : Arr2 ℝ) (c : DmReg) (th : Fl ℝ) :
    AllNan (offsetCostN Sp R T S nanFit atNan usable meas dmrad c th) := by
  intro x y v h
  unfold offsetCostN at h
  generalize surfaceN atNan _ x y th = s at h
  cases s with
  | error e => cases h
  | ok s =>
    simp only [bind, Except.bind] at h
    generalize removePistonTipTiltN S nanFit _ usable = s' at h
    cases s' with
    | error e => cases h
    | ok s' => cases h; exact misfitN_nan _ _ _ hm.2.1 hm.2.2 hm.1

theorem scaleCostN_nan (Sp : Spline) (R : Rotate) (T : Shift) (S : Solver) (nanFit : Option PyExc) (atNan : Fl ℝ → Fl ℝ → Fl ℝ → Res (Arr2 (Fl ℝ)))
    (usable : Arr2 Bool) (meas : Arr2 (Fl ℝ)) (hm : HasNan meas ∧ meas.nr = usable.nr ∧ meas.nc = usable.nc) (dmrad : Arr2 ℝ) (c : DmReg) (dx dy th : ℝ)
    (x y v : Fl ℝ) (h : scaleCostN Sp R T S nanFit atNan usable meas dmrad c dx dy th x y = .ok v) : v = .nan := by
  unfold scaleCostN at h
  generalize surfaceN atNan _ x y (.num 0) = s at h
  cases s with
  | error e => cases h
  | ok s =>
    simp only [bind, Except.bind] at h
    generalize removePistonTipTiltN S nanFit _ usable = s' at h
    cases s' with
    | error e => cases h
    | ok s' => cases h; exact misfitN_nan _ _ _ hm.2.1 hm.2.2 hm.1

/-- **C113.** With a NaN pixel anywhere in either phase map, marked usable or not, `calc_translation_clocking` never answers numbers: the
offsets and the clocking are all NaN, or an exception is raised. -/
theorem C113_registration (Sp : Spline) (R : Rotate) (T : Shift) (S : Solver) (nanFit : Option PyExc)
    (atNan : Fl ℝ → Fl ℝ → Fl ℝ → Res (Arr2 (Fl ℝ))) (d : PhaseDataN) (h : HasNan d.ph0 ∨ HasNan d.ph1) (whichDM : ℤ) (deltaV : Arr2 ℝ)
    (xPupil yPupil : ℝ) (dm1 dm2 : DmReg) (t : ClockTuning) (lam : ℝ) (r : Fl ℝ × Fl ℝ × Fl ℝ)
    (e : calcTranslationClockingN Sp R T S nanFit atNan d whichDM deltaV xPupil yPupil dm1 dm2 t lam = .ok r) :
    r = (.nan, .nan, .nan) := by
  unfold calcTranslationClockingN at e
  simp only at e
  generalize (if whichDM = 1 then dm1 else dm2) = c at e
  split_ifs at e with h1 h2 h3 h4 h5
  cases e1 : voltsToDmh c.gain deltaV lam with
  | error x => simp only [e1, bind, Except.bind] at e; cases e
  | ok dmrad =>
    cases e2 : measuredDiffN S nanFit d with
    | error x => simp only [e1, e2, bind, Except.bind] at e; cases e
    | ok meas =>
      simp only [e1, e2, bind, Except.bind] at e
      have hm := measuredDiffN_nan S nanFit d h1 h meas e2
      push Not at h5
      rcases bothLoopN_nan S nanFit _ _ (fun th => offsetCostN_nan Sp R T S nanFit atNan d.usable meas hm dmrad c th)
        (fun x y z v => clockCostN_nan Sp R T atNan d.usable meas hm dmrad c x y z v) t h5.2.1 h5.2.2.2.2.2.1 h5.2.2.1 h5.2.2.2.2.2.2 _ _
        (by rw [linspaceList_length]; omega) (by rw [linspaceList_length]; omega) _ _ _ e with ⟨g, -⟩ | g
      · omega
      · exact g

/-- **C113.** With a NaN pixel anywhere in either phase map, marked usable or not, `calc_scale` never answers numbers. -/
theorem C113_scale (Sp : Spline) (R : Rotate) (T : Shift) (S : Solver) (nanFit : Option PyExc)
    (atNan : Fl ℝ → Fl ℝ → Fl ℝ → Res (Arr2 (Fl ℝ))) (d : PhaseDataN) (h : HasNan d.ph0 ∨ HasNan d.ph1) (whichDM : ℤ) (deltaV : Arr2 ℝ)
    (dm1 dm2 : DmReg) (t : ScaleTuning) (lam xo yo th : ℝ) (r : Fl ℝ × Fl ℝ)
    (e : calcScaleN Sp R T S nanFit atNan d whichDM deltaV dm1 dm2 t lam xo yo th = .ok r) : r = (.nan, .nan) := by
  unfold calcScaleN at e
  simp only at e
  generalize (if whichDM = 1 then dm1 else dm2) = c at e
  split_ifs at e with h1 h2 h3 h4 h5
  cases e1 : voltsToDmh c.gain deltaV lam with
  | error x => simp only [e1, bind, Except.bind] at e; cases e
  | ok dmrad =>
    cases e2 : measuredDiffN S nanFit d with
    | error x => simp only [e1, e2, bind, Except.bind] at e; cases e
    | ok meas =>
      simp only [e1, e2, bind, Except.bind] at e
      have hm := measuredDiffN_nan S nanFit d h1 h meas e2
      push Not at h5
      generalize e3 : scaleLoopN S nanFit _ t t.nIter.toNat 0 t.maxDelta (.num 1, .num 1) = q at e
      cases q with
      | error x => cases e
      | ok q =>
        have hq : q = (.nan, .nan) := by
          rcases scaleLoopN_nan S nanFit _ (fun x y v => scaleCostN_nan Sp R T S nanFit atNan d.usable meas hm dmrad c xo yo th _ _ v) t h5.1 _ 0
            (by omega) _ _ _ e3 with ⟨g, -⟩ | g
          · omega
          · exact g
        subst hq
        cases e
        rw [fl_nan_mul, fl_nan_mul]

/-! ### Maps of numbers -/

theorem offsetLoopN_nums (S : Solver) (nanFit : Option PyExc) (cost : ℝ → ℝ → Res ℝ) (costN : Fl ℝ → Fl ℝ → Res (Fl ℝ))
    (hc : ∀ x y, costN (.num x) (.num y) = (cost x y).map .num) (t : ClockTuning) (hn : 0 < t.nOffset) (k iter : ℕ) (v : List ℝ × List ℝ)
    (h1 : 0 < v.1.length) (h2 : 0 < v.2.length) (est : ℝ × ℝ) :
    offsetLoopN S nanFit costN t k iter v (.num est.1, .num est.2) =
      (offsetLoop S cost t k iter v est).map fun p => (p.1, (.num p.2.1, .num p.2.2)) := by
  induction k generalizing iter v est with
  | zero => rfl
  | succ k ih =>
    rw [offsetLoopN, offsetLoop]
    simp only
    rw [costGridN_nums v.1 v.2 (fun x y => cost (est.1 + x) (est.2 + y)) _ (fun x y => hc _ _), res_map_bind, res_bind_map]
    cases e1 : costGrid v.1 v.2 fun x y => cost (est.1 + x) (est.2 + y) with
    | error e => rfl
    | ok c =>
      obtain ⟨s1, s2⟩ := costGrid_shape _ _ _ _ e1
      have hw : 0 < ((linspaceList (-t.offsetMax) t.offsetMax t.nOffset.toNat).map fun z : ℝ => t.shrinkFac ^ iter * z).length := by
        rw [List.length_map, linspaceList_length]; omega
      simp only [bind, Except.bind]
      rw [gridArgminN_nums _ _ _ (by omega) (by omega), gridFitN_nums]
      by_cases hb : iter = 0 ∧ t.nIterOffset > 1
      · rw [if_pos hb, if_pos hb]
        exact ih _ _ hw hw (est.1 + (gridArgmin v.1 v.2 c).1, est.2 + (gridArgmin v.1 v.2 c).2)
      · rw [if_neg hb, if_neg hb]
        cases e2 : gridFit S v.1 v.2 c with
        | error e => rfl
        | ok d => exact ih _ _ hw hw (est.1 + d.1, est.2 + d.2)

theorem offsetLoop_lengths (S : Solver) (cost : ℝ → ℝ → Res ℝ) (t : ClockTuning) (hn : 0 < t.nOffset) (k iter : ℕ) (v : List ℝ × List ℝ)
    (h1 : 0 < v.1.length) (h2 : 0 < v.2.length) (est : ℝ × ℝ) (r : (List ℝ × List ℝ) × ℝ × ℝ) (h : offsetLoop S cost t k iter v est = .ok r) :
    0 < r.1.1.length ∧ 0 < r.1.2.length := by
  induction k generalizing iter v est with
  | zero => cases h; exact ⟨h1, h2⟩
  | succ k ih =>
    rw [offsetLoop] at h
    have hw : 0 < ((linspaceList (-t.offsetMax) t.offsetMax t.nOffset.toNat).map fun z : ℝ => t.shrinkFac ^ iter * z).length := by
      rw [List.length_map, linspaceList_length]; omega
    generalize costGrid v.1 v.2 _ = g at h
    cases g with
    | error e => cases h
    | ok c =>
      simp only [bind, Except.bind] at h
      by_cases hb : iter = 0 ∧ t.nIterOffset > 1
      · rw [if_pos hb] at h
        exact ih (iter + 1) (_, _) hw hw _ h
      · rw [if_neg hb] at h
        cases e2 : gridFit S v.1 v.2 c with
        | error e => rw [e2] at h; cases h
        | ok d =>
          rw [e2] at h
          exact ih (iter + 1) (_, _) hw hw _ h

theorem clockLoopN_nums (S : Solver) (nanFit : Option PyExc) (cost : ℝ → Res ℝ) (costN : Fl ℝ → Res (Fl ℝ))
    (hc : ∀ x, costN (.num x) = (cost x).map .num) (t : ClockTuning) (k iter : ℕ) (est : ℝ) :
    clockLoopN S nanFit costN t k iter (.num est) = (clockLoop S cost t k iter est).map .num := by
  induction k generalizing iter est with
  | zero => rfl
  | succ k ih =>
    rw [clockLoopN, clockLoop]
    simp only
    have hm := mapM_nums (id : ℝ → ℝ) (Fl.num : ℝ → Fl ℝ) (fun z => cost (z + est)) (fun z => costN (.num z + .num est))
      ((linspaceList (-t.clockMaxDeg) t.clockMaxDeg t.nClock.toNat).map fun z : ℝ => t.shrinkFac ^ iter * z) (fun z => hc _)
    rw [List.map_id] at hm
    rw [hm, res_map_bind, res_bind_map]
    cases e1 : ((linspaceList (-t.clockMaxDeg) t.clockMaxDeg t.nClock.toNat).map fun z : ℝ => t.shrinkFac ^ iter * z).mapM fun z => cost (z + est) with
    | error e => rfl
    | ok c =>
      simp only [bind, Except.bind]
      rw [lineArgminN_nums, findOptimum1dN_nums]
      by_cases hb : iter = 0 ∧ t.nIterClock > 1
      · rw [if_pos hb, if_pos hb]
        exact ih _ (est + lineArgmin (linspaceList (-t.clockMaxDeg) t.clockMaxDeg t.nClock.toNat) c)
      · rw [if_neg hb, if_neg hb]
        cases e2 : findOptimum1d S (linspaceList (-t.clockMaxDeg) t.clockMaxDeg t.nClock.toNat) c with
        | error e => rfl
        | ok d => exact ih _ (est + d)

theorem bothLoopN_nums (S : Solver) (nanFit : Option PyExc) (oCost cCost : ℝ → ℝ → ℝ → Res ℝ) (oCostN cCostN : Fl ℝ → Fl ℝ → Fl ℝ → Res (Fl ℝ))
    (ho : ∀ x y z, oCostN (.num x) (.num y) (.num z) = (oCost x y z).map .num) (hc : ∀ x y z, cCostN (.num x) (.num y) (.num z) = (cCost x y z).map .num)
    (t : ClockTuning) (hn : 0 < t.nOffset) (k : ℕ) (v : List ℝ × List ℝ) (h1 : 0 < v.1.length) (h2 : 0 < v.2.length) (est : ℝ × ℝ) (th : ℝ) :
    bothLoopN S nanFit oCostN cCostN t k v (.num est.1, .num est.2) (.num th) =
      (bothLoop S oCost cCost t k v est th).map fun p => (.num p.1, .num p.2.1, .num p.2.2) := by
  induction k generalizing v est th with
  | zero => rfl
  | succ k ih =>
    rw [bothLoopN, bothLoop, offsetLoopN_nums S nanFit (oCost th) _ (fun x y => ho _ _ _) t hn _ _ v h1 h2 est, res_map_bind, res_bind_map]
    cases e1 : offsetLoop S (oCost th) t t.nIterOffset.toNat 0 v est with
    | error e => rfl
    | ok a =>
      obtain ⟨g1, g2⟩ := offsetLoop_lengths S _ t hn _ _ _ h1 h2 _ _ e1
      simp only [bind, Except.bind]
      rw [clockLoopN_nums S nanFit (cCost a.2.1 a.2.2) _ (fun x => hc _ _ _)]
      cases e2 : clockLoop S (cCost a.2.1 a.2.2) t t.nIterClock.toNat 0 th with
      | error e => rfl
      | ok th' => exact ih a.1 g1 g2 a.2 th'

theorem scaleLoopN_nums (S : Solver) (nanFit : Option PyExc) (cost : ℝ → ℝ → Res ℝ) (costN : Fl ℝ → Fl ℝ → Res (Fl ℝ))
    (hc : ∀ x y, costN (.num x) (.num y) = (cost x y).map .num) (t : ScaleTuning) (hn : 0 < t.nScale) (k iter : ℕ) (delta : ℝ) (sc : ℝ × ℝ) :
    scaleLoopN S nanFit costN t k iter delta (.num sc.1, .num sc.2) = (scaleLoop S cost t k iter delta sc).map fun p => (.num p.1, .num p.2) := by
  induction k generalizing iter delta sc with
  | zero => rfl
  | succ k ih =>
    rw [scaleLoopN, scaleLoop]
    simp only
    rw [costGridN_nums _ _ (fun x y => cost (x * sc.1) (y * sc.2)) _ (fun x y => hc _ _), res_map_bind, res_bind_map]
    cases e1 : costGrid (linspaceList (1 - delta) (1 + delta) t.nScale.toNat) (linspaceList (1 - delta) (1 + delta) t.nScale.toNat)
        fun x y => cost (x * sc.1) (y * sc.2) with
    | error e => rfl
    | ok c =>
      obtain ⟨s1, s2⟩ := costGrid_shape _ _ _ _ e1
      rw [linspaceList_length] at s1 s2
      simp only [bind, Except.bind]
      rw [gridArgminN_nums _ _ _ (by omega) (by omega), gridFitN_nums]
      generalize linspaceList (1 - delta) (1 + delta) t.nScale.toNat = v
      by_cases hb : iter = 0 ∧ t.nIter > 1
      · rw [if_pos hb, if_pos hb]
        exact ih _ _ ((gridArgmin v v c).1 * sc.1, (gridArgmin v v c).2 * sc.2)
      · rw [if_neg hb, if_neg hb]
        cases e2 : gridFit S v v c with
        | error e => rfl
        | ok d => exact ih _ _ (d.1 * sc.1, d.2 * sc.2)

/-- The phase maps of numbers. -/
def numData (d : PhaseData) : PhaseDataN := ⟨d.amp0.nums, d.ph0.nums, d.amp1.nums, d.ph1.nums, d.usable⟩

/-- **C113.** Without NaN pixels `calc_translation_clocking` is the function of the other claims about it. -/
theorem C113_registration_numbers (Sp : Spline) (R : Rotate) (T : Shift) (S : Solver) (nanFit : Option PyExc)
    (atNan : Fl ℝ → Fl ℝ → Fl ℝ → Res (Arr2 (Fl ℝ))) (d : PhaseData) (whichDM : ℤ) (deltaV : Arr2 ℝ)
    (xPupil yPupil : ℝ) (dm1 dm2 : DmReg) (t : ClockTuning) (lam : ℝ) :
    calcTranslationClockingN Sp R T S nanFit atNan (numData d) whichDM deltaV xPupil yPupil dm1 dm2 t lam =
      (calcTranslationClocking Sp R T S d whichDM deltaV xPupil yPupil dm1 dm2 t lam).map fun p => (.num p.1, .num p.2.1, .num p.2.2) := by
  unfold calcTranslationClockingN calcTranslationClocking
  simp only
  generalize (if whichDM = 1 then dm1 else dm2) = c
  by_cases h1 : d.shapesDiffer
  · have h1' : (numData d).shapesDiffer := h1
    rw [if_pos h1', if_pos h1]; rfl
  have h1' : ¬ (numData d).shapesDiffer := h1
  rw [if_neg h1', if_neg h1]
  split_ifs with h2 h3 h4 h5 <;> try rfl
  cases e1 : voltsToDmh c.gain deltaV lam with
  | error x => rfl
  | ok dmrad =>
    simp only [bind, Except.bind]
    rw [numData, measuredDiffN_nums]
    cases e2 : measuredDiff S d with
    | error x => rfl
    | ok meas =>
      push Not at h5
      refine bothLoopN_nums S nanFit (offsetCost Sp R T S d.usable meas dmrad c) (clockCost Sp R T d.usable meas dmrad c) _ _ ?_ ?_ t h5.2.1 _ _
        (by rw [linspaceList_length]; omega) (by rw [linspaceList_length]; omega) (xPupil, yPupil) _
      · intro th x y
        unfold offsetCostN offsetCost surfaceN
        simp only
        rw [res_map_bind, res_bind_map]
        refine bind_congr fun s => ?_
        rw [show s.nums.map (Fl.map fun v : ℝ => v * 2) = (s.map fun v : ℝ => v * 2).nums from rfl, pttN_nums, res_map_bind, res_bind_map]
        refine bind_congr fun s' => ?_
        rw [misfitN_nums]; rfl
      · intro x y th
        unfold clockCostN clockCost surfaceN
        simp only
        rw [res_map_bind, res_bind_map]
        refine bind_congr fun s => ?_
        rw [misfitN_nums]; rfl

/-- **C113.** Without NaN pixels `calc_scale` is the function of the other claims about it. -/
theorem C113_scale_numbers (Sp : Spline) (R : Rotate) (T : Shift) (S : Solver) (nanFit : Option PyExc)
    (atNan : Fl ℝ → Fl ℝ → Fl ℝ → Res (Arr2 (Fl ℝ))) (d : PhaseData) (whichDM : ℤ) (deltaV : Arr2 ℝ)
    (dm1 dm2 : DmReg) (t : ScaleTuning) (lam xo yo th : ℝ) :
    calcScaleN Sp R T S nanFit atNan (numData d) whichDM deltaV dm1 dm2 t lam xo yo th =
      (calcScale Sp R T S d whichDM deltaV dm1 dm2 t lam xo yo th).map fun p => (.num p.1, .num p.2) := by
  unfold calcScaleN calcScale
  simp only
  generalize (if whichDM = 1 then dm1 else dm2) = c
  by_cases h1 : d.shapesDiffer
  · have h1' : (numData d).shapesDiffer := h1
    rw [if_pos h1', if_pos h1]; rfl
  have h1' : ¬ (numData d).shapesDiffer := h1
  rw [if_neg h1', if_neg h1]
  split_ifs with h2 h3 h4 h5 <;> try rfl
  cases e1 : voltsToDmh c.gain deltaV lam with
  | error x => rfl
  | ok dmrad =>
    simp only [bind, Except.bind]
    rw [numData, measuredDiffN_nums]
    cases e2 : measuredDiff S d with
    | error x => rfl
    | ok meas =>
      push Not at h5
      have hl := scaleLoopN_nums S nanFit (fun x y => scaleCost Sp R T S d.usable meas dmrad c xo yo th (x * c.cx) (y * c.cy))
        (fun x y => scaleCostN Sp R T S nanFit atNan d.usable meas.nums dmrad c xo yo th (x * .num c.cx) (y * .num c.cy)) (by
          intro x y
          show scaleCostN Sp R T S nanFit atNan d.usable meas.nums dmrad c xo yo th (.num (x * c.cx)) (.num (y * c.cy)) = _
          unfold scaleCostN scaleCost surfaceN
          simp only
          rw [res_map_bind, res_bind_map]
          refine bind_congr fun s => ?_
          rw [pttN_nums, res_map_bind, res_bind_map]
          refine bind_congr fun s' => ?_
          rw [misfitN_nums]; rfl) t h5.1 t.nIter.toNat 0 t.maxDelta (1, 1)
      simp only [Except.map] at hl ⊢
      rw [hl]
      cases scaleLoop S (fun x y => scaleCost Sp R T S d.usable meas dmrad c xo yo th (x * c.cx) (y * c.cy)) t t.nIter.toNat 0 t.maxDelta (1, 1) <;> rfl

/-! ### `calc_software_mask` -/

/-- **C113.** A NaN pixel in the amplitude of the initial state makes `calc_software_mask` raise `ValueError`. -/
theorem C113_mask_amplitude (S : Solver) (nanFit : Option PyExc) (amp0 ph0 amp1 ph1 : Arr2 (Fl ℝ)) (h : HasNan amp0) (dm ne : ℤ) (c : ℝ) :
    calcSoftwareMaskN S nanFit amp0 ph0 amp1 ph1 dm ne c = .error .valueError := by
  classical
  unfold calcSoftwareMaskN ampthreshN
  rw [if_neg (show ¬ ((21 : ℤ) ≤ 0) by norm_num), if_pos h]
  split_ifs <;> rfl

/-- The arguments `calc_software_mask` accepts, for maps of `n` rows and `m` columns whose bright pixels are `t`. -/
structure MaskCall {n m : ℕ} (amp0 : Fin n → Fin m → ℝ) (amp1 : Arr2 (Fl ℝ)) (t : Fin n → Fin m → Bool) (dm ne : ℤ) (c : ℝ) : Prop where
  bright : ampthresh ⟨n, m, amp0⟩ 21 = .ok ⟨n, m, t⟩
  shape : amp1.nr = n ∧ amp1.nc = m
  which : dm = 1 ∨ dm = 2
  erosion : 0 ≤ ne
  limit : 0 < c

theorem maskN_unfold {n m : ℕ} (S : Solver) (nanFit : Option PyExc) (amp0 : Fin n → Fin m → ℝ) (amp1 : Arr2 (Fl ℝ)) (p0 p1 : Fin n → Fin m → Fl ℝ)
    (t : Fin n → Fin m → Bool) (dm ne : ℤ) (c : ℝ) (h : MaskCall amp0 amp1 t dm ne c) :
    calcSoftwareMaskN S nanFit (⟨n, m, amp0⟩ : Arr2 ℝ).nums ⟨n, m, p0⟩ amp1 ⟨n, m, p1⟩ dm ne c =
      (removePistonTipTiltN S nanFit (subPxN ⟨n, m, p1⟩ ⟨n, m, p0⟩) ⟨n, m, t⟩).map fun r => erode (dropLargeN ⟨n, m, t⟩ r c) (squareElem ne.toNat) := by
  classical
  obtain ⟨h1, ⟨h2, h3⟩, h4, h5, h6⟩ := h
  unfold calcSoftwareMaskN
  have e1 : ampthreshN (⟨n, m, amp0⟩ : Arr2 ℝ).nums 21 = .ok ⟨n, m, t⟩ := by
    unfold ampthreshN
    rw [if_neg (by norm_num), if_neg (nums_no_nan _), denan_nums, h1]
  rw [if_neg (show ¬ ((⟨n, m, amp0⟩ : Arr2 ℝ).nums.nr ≠ n ∨ (⟨n, m, amp0⟩ : Arr2 ℝ).nums.nc ≠ m) by simp [Arr2.nums, Arr2.map]),
    if_neg (show ¬ ((⟨n, m, amp0⟩ : Arr2 ℝ).nums.nr ≠ amp1.nr ∨ (⟨n, m, amp0⟩ : Arr2 ℝ).nums.nc ≠ amp1.nc) by simp [Arr2.nums, Arr2.map, h2, h3]),
    if_neg (by simp), if_neg (not_not.mpr h4), if_neg (by omega), if_neg (by linarith), e1]
  simp only [bind, Except.bind]
  cases removePistonTipTiltN S nanFit (subPxN ⟨n, m, p1⟩ ⟨n, m, p0⟩) ⟨n, m, t⟩ <;> rfl

theorem subPxN_val {n m : ℕ} (p0 p1 : Fin n → Fin m → Fl ℝ) : subPxN ⟨n, m, p1⟩ ⟨n, m, p0⟩ = ⟨n, m, fun i j => p1 i j + (p0 i j).neg⟩ := by
  refine congrArg (Arr2.mk n m) (funext fun i => funext fun j => ?_)
  have e : (⟨n, m, p0⟩ : Arr2 (Fl ℝ)).px ((i : ℕ) : ℤ) ((j : ℕ) : ℤ) = some (p0 i j) := Arr2.px_val (⟨n, m, p0⟩ : Arr2 (Fl ℝ)) i j
  show p1 i j + (((⟨n, m, p0⟩ : Arr2 (Fl ℝ)).px ((i : ℕ) : ℤ) ((j : ℕ) : ℤ)).getD 0).neg = _
  rw [e]; rfl

/-- **C113.** A NaN pixel of a phase map where the amplitude is above the threshold: if the least-squares routine raises on NaN,
`calc_software_mask` raises that exception. -/
theorem C113_mask_phase {n m : ℕ} (S : Solver) (x : PyExc) (amp0 : Fin n → Fin m → ℝ) (amp1 : Arr2 (Fl ℝ)) (p0 p1 : Fin n → Fin m → Fl ℝ)
    (t : Fin n → Fin m → Bool) (dm ne : ℤ) (c : ℝ) (h : MaskCall amp0 amp1 t dm ne c)
    (hn : ∃ i j, t i j = true ∧ (p0 i j = .nan ∨ p1 i j = .nan)) :
    calcSoftwareMaskN S (some x) (⟨n, m, amp0⟩ : Arr2 ℝ).nums ⟨n, m, p0⟩ amp1 ⟨n, m, p1⟩ dm ne c = .error x := by
  classical
  rw [maskN_unfold S (some x) amp0 amp1 p0 p1 t dm ne c h, subPxN_val]
  unfold removePistonTipTiltN
  rw [dif_pos ⟨rfl, rfl⟩]
  obtain ⟨i, j, h1, h2⟩ := hn
  have : ∃ (i : Fin n) (j : Fin m), t i j = true ∧ p1 i j + (p0 i j).neg = .nan := by
    refine ⟨i, j, h1, ?_⟩
    rcases h2 with h2 | h2
    · rw [h2]; exact fl_add_nan _
    · rw [h2]; exact fl_nan_add _
  simp only [Fin.cast_eq_self]
  rw [if_pos this]
  rfl

/-- **C113, where it fails.** A NaN pixel of a phase map where the amplitude is above the threshold: if the least-squares routine answers
NaN, the phase limit excludes no pixel at all.  The mask is the bright pixels, eroded: it holds the bad pixel (when its neighbours are
bright) and every dead actuator. -/
theorem C113_mask_fails {n m : ℕ} (S : Solver) (amp0 : Fin n → Fin m → ℝ) (amp1 : Arr2 (Fl ℝ)) (p0 p1 : Fin n → Fin m → Fl ℝ)
    (t : Fin n → Fin m → Bool) (dm ne : ℤ) (c : ℝ) (h : MaskCall amp0 amp1 t dm ne c)
    (hn : ∃ i j, t i j = true ∧ (p0 i j = .nan ∨ p1 i j = .nan)) :
    ∃ o, calcSoftwareMaskN S none (⟨n, m, amp0⟩ : Arr2 ℝ).nums ⟨n, m, p0⟩ amp1 ⟨n, m, p1⟩ dm ne c = .ok o ∧
      ∀ i j : ℤ, o.px i j = some true ↔ ∀ i' j' : ℤ, |i' - i| ≤ ne → |j' - j| ≤ ne → (⟨n, m, t⟩ : Arr2 Bool).px i' j' = some true := by
  classical
  rw [maskN_unfold S none amp0 amp1 p0 p1 t dm ne c h, subPxN_val]
  unfold removePistonTipTiltN
  rw [dif_pos ⟨rfl, rfl⟩]
  obtain ⟨i, j, h1, h2⟩ := hn
  have : ∃ (i : Fin n) (j : Fin m), t i j = true ∧ p1 i j + (p0 i j).neg = .nan := by
    refine ⟨i, j, h1, ?_⟩
    rcases h2 with h2 | h2
    · rw [h2]; exact fl_add_nan _
    · rw [h2]; exact fl_nan_add _
  simp only [Fin.cast_eq_self]
  rw [if_pos this]
  refine ⟨_, rfl, fun a b => ?_⟩
  have hd : dropLargeN ⟨n, m, t⟩ ⟨n, m, fun _ _ => .nan⟩ c = ⟨n, m, t⟩ := by
    refine congrArg (Arr2.mk n m) (funext fun i => funext fun j => ?_)
    have e : (⟨n, m, fun _ _ => .nan⟩ : Arr2 (Fl ℝ)).px ((i : ℕ) : ℤ) ((j : ℕ) : ℤ) = some .nan :=
      Arr2.px_val (⟨n, m, fun _ _ => .nan⟩ : Arr2 (Fl ℝ)) i j
    simp only
    rw [e]
    exact if_neg id
  simp only
  rw [hd, px_erode_square, Int.toNat_of_nonneg h.erosion]

/-- The part of a NaN-free map on the marked pixels does not depend on the others. -/
theorem pttN_outside {n m : ℕ} (S : Solver) (nanFit : Option PyExc) (u : Fin n → Fin m → Fl ℝ) (w : Fin n → Fin m → ℝ) (t : Fin n → Fin m → Bool)
    (h : ∀ i j, t i j = true → u i j = .num (w i j)) :
    ∃ r, removePistonTipTiltN S nanFit ⟨n, m, u⟩ ⟨n, m, t⟩ = .ok ⟨n, m, r⟩ ∧ ∀ i j, t i j = true → r i j = .num (pttValues S w t i j) := by
  classical
  unfold removePistonTipTiltN
  rw [dif_pos ⟨rfl, rfl⟩]
  have hno : ¬ ∃ (i : Fin n) (j : Fin m), t i j = true ∧ u i j = .nan := by
    rintro ⟨i, j, h1, h2⟩
    rw [h i j h1] at h2
    cases h2
  simp only [Fin.cast_eq_self]
  rw [if_neg hno]
  refine ⟨_, rfl, fun i j ht => ?_⟩
  have hp : pttCoeffs S (n := n) (m := m) (⟨n, m, u⟩ : Arr2 (Fl ℝ)).denan.val t = pttCoeffs S w t := by
    unfold pttCoeffs
    congr 1
    funext q
    simp only [Arr2.denan, Arr2.map, h _ _ q.2]
  unfold pttValues
  simp only
  rw [if_pos ht, if_pos ht, h i j ht]
  generalize hk : pttCoeffs S w t = k
  rw [hk] at hp
  have hp' : ∀ q, pttCoeffs S (n := n) (m := m) (⟨n, m, u⟩ : Arr2 (Fl ℝ)).denan.val (fun i j => t i j) q = k q := fun q => congrFun hp q
  show Fl.num ((1 : ℝ) * (w i j + -(pttCoeffs S (n := n) (m := m) (⟨n, m, u⟩ : Arr2 (Fl ℝ)).denan.val (fun i j => t i j) 0 * pttCoord m j +
    pttCoeffs S (n := n) (m := m) (⟨n, m, u⟩ : Arr2 (Fl ℝ)).denan.val (fun i j => t i j) 1 * pttCoord n i +
    pttCoeffs S (n := n) (m := m) (⟨n, m, u⟩ : Arr2 (Fl ℝ)).denan.val (fun i j => t i j) 2))) = _
  rw [hp', hp', hp', one_mul, sub_eq_add_neg]

/-- **C113.** NaN pixels of the phase maps where the amplitude is not above the threshold do no harm: the mask is the one of the maps with
any numbers in their place. -/
theorem C113_mask_outside {n m : ℕ} (S : Solver) (nanFit : Option PyExc) (amp0 : Fin n → Fin m → ℝ) (amp1 : Arr2 (Fl ℝ)) (p0 p1 : Fin n → Fin m → Fl ℝ)
    (t : Fin n → Fin m → Bool) (dm ne : ℤ) (c : ℝ) (h : MaskCall amp0 amp1 t dm ne c) (q0 q1 : Fin n → Fin m → ℝ)
    (hq : ∀ i j, t i j = true → p0 i j = .num (q0 i j) ∧ p1 i j = .num (q1 i j)) (amp1' : Fin n → Fin m → ℝ) :
    calcSoftwareMaskN S nanFit (⟨n, m, amp0⟩ : Arr2 ℝ).nums ⟨n, m, p0⟩ amp1 ⟨n, m, p1⟩ dm ne c =
      calcSoftwareMask S ⟨n, m, amp0⟩ ⟨n, m, q0⟩ ⟨n, m, amp1'⟩ ⟨n, m, q1⟩ dm ne c := by
  classical
  rw [maskN_unfold S nanFit amp0 amp1 p0 p1 t dm ne c h, subPxN_val]
  have hs : (⟨n, m, q1⟩ : Arr2 ℝ).subPx ⟨n, m, q0⟩ = ⟨n, m, fun i j => q1 i j - q0 i j⟩ := by
    refine congrArg (Arr2.mk n m) (funext fun i => funext fun j => ?_)
    have e : (⟨n, m, q0⟩ : Arr2 ℝ).px ((i : ℕ) : ℤ) ((j : ℕ) : ℤ) = some (q0 i j) := Arr2.px_val (⟨n, m, q0⟩ : Arr2 ℝ) i j
    show q1 i j - ((⟨n, m, q0⟩ : Arr2 ℝ).px ((i : ℕ) : ℤ) ((j : ℕ) : ℤ)).getD 0 = _
    rw [e]; rfl
  unfold calcSoftwareMask
  rw [if_neg (by simp), if_neg (by simp), if_neg (by simp), if_neg (not_not.mpr h.which), if_neg (by have := h.erosion; omega),
    if_neg (by have := h.limit; linarith), h.bright, hs]
  obtain ⟨r, e1, e2⟩ := pttN_outside S nanFit (fun i j => p1 i j + (p0 i j).neg) (fun i j => q1 i j - q0 i j) t (by
    intro i j ht
    rw [(hq i j ht).1, (hq i j ht).2, sub_eq_add_neg]; rfl)
  rw [e1]
  have hR : removePistonTipTilt S ⟨n, m, fun i j => q1 i j - q0 i j⟩ ⟨n, m, t⟩ = .ok ⟨n, m, pttValues S (fun i j => q1 i j - q0 i j) t⟩ :=
    dif_pos ⟨rfl, rfl⟩
  simp only [hR]
  refine congrArg Except.ok (congrArg (fun u => erode u (squareElem ne.toNat)) (congrArg (Arr2.mk n m) (funext fun i => funext fun j => ?_)))
  simp only
  have f1 : (⟨n, m, r⟩ : Arr2 (Fl ℝ)).px ((i : ℕ) : ℤ) ((j : ℕ) : ℤ) = some (r i j) := Arr2.px_val (⟨n, m, r⟩ : Arr2 (Fl ℝ)) i j
  have f2 : (⟨n, m, pttValues S (fun i j => q1 i j - q0 i j) t⟩ : Arr2 ℝ).px ((i : ℕ) : ℤ) ((j : ℕ) : ℤ) =
      some (pttValues S (fun i j => q1 i j - q0 i j) t i j) :=
    Arr2.px_val (⟨n, m, pttValues S (fun i j => q1 i j - q0 i j) t⟩ : Arr2 ℝ) i j
  rw [f1, f2]
  by_cases ht : t i j = true
  · simp only [Option.getD_some]
    rw [e2 i j ht]
    rfl
  · have hf : t i j = false := by simpa using ht
    rw [hf]
    split_ifs <;> rfl

/-! ### `platesolv` -/

/-- **C113.** With a NaN pixel in the recorded or in the simulated image `platesolv` reports no plate scale at all: the array of best fits is
empty and every residual is NaN. -/
theorem C113_platesolv (I : Interp1d) (img guess : Arr2 (Fl ℝ)) (h : HasNan img ∨ HasNan guess) (pg : ℝ) (c : PlateConsts)
    (best pix : List ℝ) (resid : List (Option ℝ)) (e : platesolvN I img guess pg c = .ok (best, pix, resid)) :
    best = [] ∧ resid = pix.map fun _ => none := by
  classical
  unfold platesolvN at e
  split_ifs at e with h1 h2
  split at e
  · split_ifs at e with h3
    simp only [bind, Except.bind] at e
    split at e
    · cases e
    rename_i px hpx
    split at e
    · cases e
    rename_i ref href
    split at e
    · cases e
    rename_i rs hrs
    obtain ⟨hl, hall⟩ := mapM_all _ (fun v : Option ℝ => v = none) _ (by
      intro p v hv
      unfold plateResidualN at hv
      simp only [bind, Except.bind] at hv
      split at hv
      · cases hv
      · rw [if_pos h] at hv; cases hv; rfl) _ hrs
    have hrs' : rs = px.map fun _ => none := by
      refine List.ext_getElem (by simpa using hl) fun k h1 h2 => ?_
      rw [List.getElem_map]
      exact hall _ (List.getElem_mem _)
    split at e
    · split at e
      · cases e
      split_ifs at e with h4 h5
      have hn : rs.mapM id = none := (mapM_id rs).2.mpr (by
        have : 0 < rs.length := by omega
        have := hall _ (List.getElem_mem this)
        rw [← this]
        exact List.getElem_mem _)
      rw [hn] at e
      cases e
      exact ⟨rfl, hrs'⟩
    · cases e
  · cases e

/-- **C113.** Without NaN pixels `platesolv` is the function of the other claims about it. -/
theorem C113_platesolv_numbers (I : Interp1d) (img guess : Arr2 ℝ) (pg : ℝ) (c : PlateConsts) :
    platesolvN I img.nums guess.nums pg c = platesolv I img guess pg c := by
  classical
  unfold platesolvN platesolv
  have hr : ∀ ref ppp pct p, plateResidualN img.nums guess.nums ref ppp pct p = plateResidual img guess ref ppp pct p := by
    intro ref ppp pct p
    unfold plateResidualN
    rw [denan_nums, denan_nums]
    have : ¬ (HasNan img.nums ∨ HasNan guess.nums) := fun h => h.elim (nums_no_nan _) (nums_no_nan _)
    simp only [if_neg this]
    cases plateResidual img guess ref ppp pct p <;> rfl
  simp only [hr, denan_nums]
  rfl

end Coralign.Props
