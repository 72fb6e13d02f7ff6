import Verif.PropsOrbitMotion

/-!
# Repeated propagation (C68)

The corrected form of C28 for objects that store the true or eccentric anomaly, where every `propagate` solves Kepler's equation
anew: the mean anomaly drifts by less than the tolerance of the solver with every step, and the position accordingly.
-/

set_option linter.unusedSimpArgs false
set_option linter.unusedVariables false

namespace Pyorb
namespace Orbit
open Py FX
variable (g : KGarbage)

/-- a sequence of calls of `propagate` that return; `ds` are the time steps of orbit `j` -/
inductive Steps (g : KGarbage) (n j : Nat) : List ℝ → Orb FX → Orb FX → Prop where
  | nil (s : Orb FX) : Steps g n j [] s s
  | cons {s s' s'' : Orb FX} (dt : Val FX) (dts : List FX) (d : ℝ) (ds : List ℝ) (row : dt.Row n dts) (at_j : dts[j]? = some (fin d))
      (run : propagate (fxKern g) dt s = (.ok (), s')) (rest : Steps g n j ds s' s'') : Steps g n j (d :: ds) s s''

/-- how far one step may be off, by the anomaly an object stores -/
noncomputable def stepError (t : Anom) (tol : ℝ) : ℝ := if t = .mean then 0 else tol

theorem kro_of_run {n : Nat} {s s' : Orb FX} {dt : Val FX} {dts : List FX} (hs : OneEntryPerOrbit s n) (hrow : dt.Row n dts)
    (hrun : propagate (fxKern g) dt s = (.ok (), s')) : s.kro = false := by
  by_contra hc
  have := propagate_kro (fxKern g) hs.wfe (by simpa using hc) hrow
  rw [hrun] at this
  cases this

theorem turn_back (x : ℝ) : ∃ z : ℤ, turn x = x + z * (2 * Real.pi) := by
  obtain ⟨z, hz⟩ := turn_eq x
  exact ⟨-z, by rw [hz]; push_cast; ring⟩

/-- the mean anomaly after one step, read back from what is stored -/
theorem Ellipse.step_mean {n : Nat} {s s' : Orb FX} {j : Nat} {k : Kep ℝ} {mu tol : ℝ} (hs : OneEntryPerOrbit s n)
    (h : Ellipse g s j k mu tol) {M : ℝ} (hM : anomOf (fxKern g) .mean (kepCheck (fxKern g) s) k.fx = fin M)
    {dt : Val FX} {dts : List FX} (hdt : dt.Row n dts) {d : ℝ} (hd : dts[j]? = some (fin d))
    (hrun : propagate (fxKern g) dt s = (.ok (), s'))
    (hl : ∀ x : ℝ, 0 ≤ x → x < 2 * Real.pi → ¬ HitLimit s.opts (fin x) (fin k.e)) :
    ∃ (x M' E : ℝ) (z : ℤ), OneEntryPerOrbit s' n ∧ OnlyElements s s' ∧ Ellipse g s' j { k with nu := x } mu tol ∧
      anomOf (fxKern g) .mean (kepCheck (fxKern g) s') (Kep.fx { k with nu := x }) = fin M' ∧
      |angleOf s.degrees M' - (angleOf s.degrees M + √(mu / k.a ^ 3) * d + z * (2 * Real.pi))| ≤ stepError s.type tol ∧
      |meanOf k.e E - (angleOf s.degrees M + √(mu / k.a ^ 3) * d + z * (2 * Real.pi))| < tol ∧
      (s.auto = true ∨ s.direct = true → ∃ cs, (get_cartesian (fxKern g) s').1 = .ok cs ∧
        cs[j]? = some (ellipseState (k.inRad s.degrees) √(mu / k.a ^ 3) E).fx) := by
  have h0 := h.e_nonneg
  have h1 := h.e_lt
  obtain ⟨t, x, E, p1, p2, p3, p4, p5, p6, p7, p8⟩ := h.step g hs (kro_of_run g hs hdt hrun) hM hdt hd
  rw [hrun] at p1
  injection p1 with _ p1
  subst p1
  obtain ⟨z, hz⟩ := turn_back (angleOf s.degrees M + √(mu / k.a ^ 3) * d)
  obtain ⟨y0, y1⟩ := turn_mem (angleOf s.degrees M + √(mu / k.a ^ 3) * d)
  have hsol := p5 (hl _ y0 y1)
  have hst := kepCheck_settings (fxKern g) s'
  have e1 : (kepCheck (fxKern g) s').type = s.type := by rw [hst.1, p3]
  have e2 : (kepCheck (fxKern g) s').degrees = s.degrees := by rw [hst.2.1, p3]
  have e3 : (kepCheck (fxKern g) s').opts = s.opts := by rw [hst.2.2.1, p3]
  have hE : meanToEccentricEl s.opts (fin (angleOf s.degrees (meanAfter s.degrees mu k.a M d))) (fin k.e) = fin E := by
    unfold meanAfter
    rw [angleOf_angleOut]; exact p4
  have hback : ∃ (M' : ℝ) (z' : ℤ), anomOf (fxKern g) .mean (kepCheck (fxKern g) s') (Kep.fx { k with nu := x }) = fin M' ∧
      ((s.type = .mean ∧ angleOf s.degrees M' = turn (angleOf s.degrees M + √(mu / k.a ^ 3) * d) ∧ z' = 0) ∨
        (s.type ≠ .mean ∧ angleOf s.degrees M' = meanOf k.e E + z' * (2 * Real.pi))) := by
    rw [anomOf_conv, e1, e2, e3]
    show ∃ (M' : ℝ) (z' : ℤ), conv (fxKern g) s.opts s.degrees s.type .mean (fin x) (fin k.e) = fin M' ∧ _
    cases hty : s.type with
    | mean =>
      rw [hty] at p7
      refine ⟨meanAfter s.degrees mu k.a M d, 0, ?_, .inl ⟨rfl, ?_, rfl⟩⟩
      · rw [← p7]; rfl
      · unfold meanAfter
        rw [angleOf_angleOut]
    | tru =>
      rw [hty] at p7
      have hx : fin x = fin (angleOut s.degrees (trueOf k.e E)) := by rw [← p7]; exact fx_mtt g s.degrees h0 h1 hE
      obtain ⟨z', hz'⟩ := turn_back E
      refine ⟨angleOut s.degrees (meanOf k.e (turn E)), z', ?_, .inr ⟨by simp, ?_⟩⟩
      · rw [hx]
        show (fxKern g).trueToMean false s.degrees _ _ = _
        rw [fx_ttm g s.degrees h0 h1, angleOf_angleOut, eccOf_trueOf h0 h1]
      · rw [angleOf_angleOut, hz', meanOf_eli _ h1, meanOf_eli _ h1, Real.sin_add_int_mul_two_pi]
        ring
    | ecc =>
      rw [hty] at p7
      have hx : fin x = fin (angleOut s.degrees E) := by rw [← p7]; exact fx_mte g s.degrees hE
      refine ⟨angleOut s.degrees (meanOf k.e E), 0, ?_, .inr ⟨by simp, ?_⟩⟩
      · rw [hx]
        show (fxKern g).eccToMean false s.degrees _ _ = _
        rw [fx_etm g s.degrees h1, angleOf_angleOut]
      · rw [angleOf_angleOut]; push_cast; ring
  obtain ⟨M', z', hM', hcase⟩ := hback
  rw [hz] at hsol
  rcases hcase with ⟨ht, hval, rfl⟩ | ⟨ht, hval⟩
  · refine ⟨x, M', E, z, p2, p3, h.after g (n := n) p3 p6, hM', ?_, hsol, p8⟩
    rw [hval, hz, sub_self, abs_zero, stepError, if_pos ht]
  · have hshift : ∀ E : ℝ, meanOf k.e (E + z' * (2 * Real.pi)) = meanOf k.e E + z' * (2 * Real.pi) := by
      intro E
      rw [meanOf_eli _ h1, meanOf_eli _ h1, Real.sin_add_int_mul_two_pi]; ring
    refine ⟨x, M', E + z' * (2 * Real.pi), z + z', p2, p3, h.after g (n := n) p3 p6, hM', ?_, ?_, fun hm => ?_⟩
    · rw [stepError, if_neg ht, hval]
      refine le_of_eq_of_le (congrArg abs ?_) hsol.le
      push_cast; ring
    · rw [hshift]
      refine lt_of_eq_of_lt (congrArg abs ?_) hsol
      push_cast; ring
    · rw [ellipseState_turn]; exact p8 hm

/-- the mean anomaly after a sequence of steps, and the point where the state is -/
theorem Ellipse.steps {n : Nat} {s s' : Orb FX} {j : Nat} {ds : List ℝ} (hp : Steps g n j ds s s') :
    ∀ {k : Kep ℝ} {mu tol M : ℝ}, OneEntryPerOrbit s n → Ellipse g s j k mu tol →
    anomOf (fxKern g) .mean (kepCheck (fxKern g) s) k.fx = fin M →
    (∀ x : ℝ, 0 ≤ x → x < 2 * Real.pi → ¬ HitLimit s.opts (fin x) (fin k.e)) →
    ∃ (x M' : ℝ) (z : ℤ), OneEntryPerOrbit s' n ∧ OnlyElements s s' ∧ Ellipse g s' j { k with nu := x } mu tol ∧
      anomOf (fxKern g) .mean (kepCheck (fxKern g) s') (Kep.fx { k with nu := x }) = fin M' ∧
      |angleOf s.degrees M' - (angleOf s.degrees M + √(mu / k.a ^ 3) * ds.sum + z * (2 * Real.pi))| ≤ ds.length * stepError s.type tol ∧
      (ds ≠ [] → s.auto = true ∨ s.direct = true → ∃ cs E, (get_cartesian (fxKern g) s').1 = .ok cs ∧
        cs[j]? = some (ellipseState (k.inRad s.degrees) √(mu / k.a ^ 3) E).fx ∧
        |meanOf k.e E - (angleOf s.degrees M + √(mu / k.a ^ 3) * ds.sum + z * (2 * Real.pi))| ≤ tol + (ds.length - 1) * stepError s.type tol) := by
  induction hp with
  | nil s =>
    intro k mu tol M hs h hM hl
    refine ⟨k.nu, M, 0, hs, OnlyElements.refl s, h, hM, ?_, fun h => absurd rfl h⟩
    simp
  | @cons s s1 s2 dt dts d ds row at_j run rest ih =>
    intro k mu tol M hs h hM hl
    obtain ⟨x, M1, E, z, q1, q2, q3, q4, q5, q6, q7⟩ := h.step_mean g hs hM row at_j run hl
    have e1 : s1.type = s.type := by rw [q2]
    have e2 : s1.degrees = s.degrees := by rw [q2]
    have e3 : s1.opts = s.opts := by rw [q2]
    have e4 : s1.auto = s.auto := by rw [q2]
    have e5 : s1.direct = s.direct := by rw [q2]
    obtain ⟨x2, M2, z2, r1, r2, r3, r4, r5, r6⟩ := ih q1 q3 q4 (by rw [e3]; exact hl)
    rw [e1, e2] at r5
    have hsplit : ∀ y : ℝ, y - (angleOf s.degrees M + √(mu / k.a ^ 3) * (d :: ds).sum + ((z + z2 : ℤ) : ℝ) * (2 * Real.pi)) =
        (y - (angleOf s.degrees M1 + √(mu / k.a ^ 3) * ds.sum + z2 * (2 * Real.pi))) +
        (angleOf s.degrees M1 - (angleOf s.degrees M + √(mu / k.a ^ 3) * d + z * (2 * Real.pi))) := by
      intro y
      rw [List.sum_cons]; push_cast; ring
    have hrest : ds = [] ∧ s2 = s1 ∨ ds ≠ [] := by
      cases rest with
      | nil => exact .inl ⟨rfl, rfl⟩
      | cons => exact .inr (by simp)
    refine ⟨x2, M2, z + z2, r1, q2.trans r2, r3, r4, ?_, fun _ hmode => ?_⟩
    · rw [hsplit]
      refine (abs_add_le _ _).trans ?_
      rw [List.length_cons]; push_cast
      linarith
    · rcases hrest with ⟨rfl, rfl⟩ | hne
      · obtain ⟨cs, c1, c2⟩ := q7 hmode
        -- no further steps: shift the point by the turns of the (empty) rest
        have h1 := h.e_lt
        refine ⟨cs, E + z2 * (2 * Real.pi), c1, by rw [ellipseState_turn]; exact c2, ?_⟩
        rw [meanOf_eli _ h1, Real.sin_add_int_mul_two_pi]
        rw [meanOf_eli _ h1] at q6
        have : E + z2 * (2 * Real.pi) - k.e * Real.sin E - (angleOf s.degrees M + √(mu / k.a ^ 3) * [d].sum + ((z + z2 : ℤ) : ℝ) * (2 * Real.pi)) =
            E - k.e * Real.sin E - (angleOf s.degrees M + √(mu / k.a ^ 3) * d + z * (2 * Real.pi)) := by
          simp only [List.sum_cons, List.sum_nil, add_zero]; push_cast; ring
        rw [this]
        simp only [List.length_cons, List.length_nil]
        norm_num
        exact q6.le
      · obtain ⟨cs, E2, c1, c2, c3⟩ := r6 hne (by rw [e4, e5]; exact hmode)
        rw [e2] at c2 c3
        rw [e1] at c3
        refine ⟨cs, E2, c1, c2, ?_⟩
        rw [hsplit]
        refine (abs_add_le _ _).trans ?_
        rw [List.length_cons]; push_cast
        have : |meanOf k.e E2 - (angleOf s.degrees M1 + √(mu / k.a ^ 3) * ds.sum + z2 * (2 * Real.pi))| ≤ tol + (ds.length - 1) * stepError s.type tol := c3
        linarith

/-- C68, mean anomaly: after any number of calls of `propagate` that return, the mean anomaly the object answers for an elliptic orbit is that of
the total time, up to whole turns, with an error of at most the solver tolerance for every call; without error for an object that stores the
mean anomaly.  (If the solver does not hit its iteration limit for any mean anomaly.) -/
theorem c68_mean {n : Nat} {s s' : Orb FX} {j : Nat} {ds : List ℝ} (hp : Steps g n j ds s s') (k : Kep ℝ) (mu tol : ℝ) (hs : OneEntryPerOrbit s n)
    (h : Ellipse g s j k mu tol) (hl : ∀ x : ℝ, 0 ≤ x → x < 2 * Real.pi → ¬ HitLimit s.opts (fin x) (fin k.e)) :
    ∃ (Ms Ms' : List FX) (M M' : ℝ) (z : ℤ), (get_mean_anomaly (fxKern g) s).1 = .ok Ms ∧ Ms[j]? = some (fin M) ∧
      (get_mean_anomaly (fxKern g) s').1 = .ok Ms' ∧ Ms'[j]? = some (fin M') ∧
      |angleOf s.degrees M' - (angleOf s.degrees M + √(mu / k.a ^ 3) * ds.sum + z * (2 * Real.pi))| ≤
        if s.type = .mean then 0 else ds.length * tol := by
  obtain ⟨M, Ms, r1, r2, hM⟩ := h.mean g hs
  obtain ⟨x, M', z, q1, q2, q3, q4, q5, -⟩ := Ellipse.steps g hp hs h hM hl
  obtain ⟨M2, Ms', r3, r4, hM2⟩ := q3.mean g q1
  obtain rfl : M2 = M' := by rw [q4] at hM2; exact (FX.fin.inj hM2).symm
  refine ⟨Ms, Ms', M, M2, z, r1, r2, r3, r4, q5.trans (le_of_eq ?_)⟩
  unfold stepError
  split <;> simp

/-- C68, composition: two steps and one step of the total time lead to mean anomalies that differ by whole turns and at most three times the solver
tolerance; not at all for an object that stores the mean anomaly -/
theorem c68_compose {n : Nat} {s s1 s2 s12 : Orb FX} {j : Nat} (k : Kep ℝ) (mu tol d1 d2 : ℝ) (hs : OneEntryPerOrbit s n) (h : Ellipse g s j k mu tol)
    (hl : ∀ x : ℝ, 0 ≤ x → x < 2 * Real.pi → ¬ HitLimit s.opts (fin x) (fin k.e)) (dt1 dt2 dt12 : Val FX) (l1 l2 l12 : List FX)
    (w1 : dt1.Row n l1) (w2 : dt2.Row n l2) (w12 : dt12.Row n l12) (a1 : l1[j]? = some (fin d1)) (a2 : l2[j]? = some (fin d2))
    (a12 : l12[j]? = some (fin (d1 + d2))) (p1 : propagate (fxKern g) dt1 s = (.ok (), s1)) (p2 : propagate (fxKern g) dt2 s1 = (.ok (), s2))
    (p12 : propagate (fxKern g) dt12 s = (.ok (), s12)) :
    ∃ (Ms Ms' : List FX) (M M' : ℝ) (z : ℤ), (get_mean_anomaly (fxKern g) s2).1 = .ok Ms ∧ Ms[j]? = some (fin M) ∧
      (get_mean_anomaly (fxKern g) s12).1 = .ok Ms' ∧ Ms'[j]? = some (fin M') ∧
      |angleOf s.degrees M - angleOf s.degrees M' + z * (2 * Real.pi)| ≤ if s.type = .mean then 0 else 3 * tol := by
  obtain ⟨M0, M2, m0, m2, z, t1, t2, t3, t4, t5⟩ := c68_mean g (.cons dt1 l1 d1 [d2] w1 a1 p1 (.cons dt2 l2 d2 [] w2 a2 p2 (.nil s2))) k mu tol hs h hl
  obtain ⟨M0', M3, m0', m3, z', u1, u2, u3, u4, u5⟩ := c68_mean g (.cons dt12 l12 (d1 + d2) [] w12 a12 p12 (.nil s12)) k mu tol hs h hl
  obtain rfl : M0 = M0' := Except.ok.inj (t1.symm.trans u1)
  obtain rfl : m0 = m0' := FX.fin.inj (Option.some.inj (t2.symm.trans u2))
  refine ⟨M2, M3, m2, m3, z' - z, t3, t4, u3, u4, ?_⟩
  have e : angleOf s.degrees m2 - angleOf s.degrees m3 + ((z' - z : ℤ) : ℝ) * (2 * Real.pi) =
      (angleOf s.degrees m2 - (angleOf s.degrees m0 + √(mu / k.a ^ 3) * [d1, d2].sum + z * (2 * Real.pi))) -
      (angleOf s.degrees m3 - (angleOf s.degrees m0 + √(mu / k.a ^ 3) * [d1 + d2].sum + z' * (2 * Real.pi))) := by
    simp only [List.sum_cons, List.sum_nil]; push_cast; ring
  rw [e]
  refine (abs_sub _ _).trans ((add_le_add t5 u5).trans (le_of_eq ?_))
  split
  · simp
  · simp only [List.length_cons, List.length_nil]; push_cast; ring

/-- C68, state: one solution `c` of Newton's equations of motion, starting at the exact point with the mean anomaly `M` the object answers, such that after
any number `N > 0` of calls of `propagate` that return, the position read from `orb.cartesian` is at most `a N tol / (1 - e)` away from `c` at the total
time, and the velocity at most `a n N tol / (1 - e)^2` off -/
theorem c68_state {n : Nat} (s : Orb FX) (hs : OneEntryPerOrbit s n) (hmode : s.auto = true ∨ s.direct = true) (j : Nat) (k : Kep ℝ)
    (mu tol : ℝ) (ht : 0 ≤ tol) (h : Ellipse g s j k mu tol) (hl : ∀ x : ℝ, 0 ≤ x → x < 2 * Real.pi → ¬ HitLimit s.opts (fin x) (fin k.e)) :
    ∃ (M : ℝ) (Ms : List FX) (c : ℝ → Cart ℝ), (get_mean_anomaly (fxKern g) s).1 = .ok Ms ∧ Ms[j]? = some (fin M) ∧ ObeysNewton mu c ∧
      (∀ nu E, SamePoint k.e (angleOf s.degrees nu) E → E - k.e * Real.sin E = angleOf s.degrees M →
        DescribesOrbit mu (Kep.inRad s.degrees { k with nu := nu }) (c 0)) ∧
      ∀ (ds : List ℝ) (s' : Orb FX), ds ≠ [] → Steps g n j ds s s' →
        ∃ cs c', (get_cartesian (fxKern g) s').1 = .ok cs ∧ cs[j]? = some c'.fx ∧ SameOrbit mu c' (c ds.sum) ∧
          vlen (c'.r - (c ds.sum).r) ≤ k.a * (ds.length * tol) / (1 - k.e) ∧
          vlen (c'.v - (c ds.sum).v) ≤ k.a * √(mu / k.a ^ 3) * (ds.length * tol) / (1 - k.e) ^ 2 := by
  obtain ⟨M, Ms, r1, r2, hM⟩ := h.mean g hs
  have hmu := h.mu_pos
  have ha := h.a_pos
  have h0 := h.e_nonneg
  have h1 := h.e_lt
  obtain ⟨hn, hn2⟩ := motion_pos hmu ha
  have hq : 0 < 1 - k.e := by linarith
  obtain ⟨c, hcdef, hN, hst⟩ := newton_curve hmu ha h0 h1 s.degrees (angleOf s.degrees M)
  refine ⟨M, Ms, c, r1, r2, hN, hst, fun ds s' hne hp => ?_⟩
  obtain ⟨x, M', z, -, -, -, -, -, q⟩ := Ellipse.steps g hp hs h hM hl
  obtain ⟨cs, E, c1, c2, c3⟩ := q hne hmode
  obtain ⟨F, hF, hFm⟩ := hcdef ds.sum
  refine ⟨cs, _, c1, c2, by rw [hF]; exact ellipse_sameOrbit hmu ha h0 h1 _ _ _, ?_⟩
  rw [hF]
  have hlen : (1 : ℝ) ≤ ds.length := by
    have : 0 < ds.length := List.length_pos_iff.mpr hne
    exact_mod_cast this
  have hb : tol + (ds.length - 1) * stepError s.type tol ≤ ds.length * tol := by
    unfold stepError
    split
    · nlinarith
    · linarith
  refine points_close (k := k) (mu := mu) hmu ha h0 h1 s.degrees (z := z) ?_
  rw [hFm]
  exact c3.trans hb

/-! ## Cases of the theorems -/

/-- for small eccentricities the starting guess is good enough, so that the solver does not hit its limit -/
theorem not_hit_small {tol d e : ℝ} {mi : Int} (h0 : 0 ≤ e) (h1 : e < 1) (ht : 9 * e < tol) {M : ℝ} (hM0 : 0 ≤ M) (hM1 : M < 2 * Real.pi) :
    ¬ HitLimit (opts tol mi d) (fin M) (fin e) := by
  obtain ⟨E0, hE, hn, -⟩ := c49_near M e h0 h1 hM0 hM1.le
  rw [kepler_guess_fl] at hE
  have hg : keplerGuess (fin M) (fin e) = fin E0 := by simpa [fl] using hE
  rw [HitLimit, hg, c11_start_accepted]
  · simp
  · have : |M - E0 + e * Real.sin E0| < tol := by
      have h2 : |e * Real.sin E0| ≤ e := by
        rw [abs_mul, abs_of_nonneg h0]
        exact mul_le_of_le_one_right h0 (Real.abs_sin_le_one _)
      have h3 := abs_add_le (M - E0) (e * Real.sin E0)
      rw [abs_sub_comm M E0] at h3
      linarith
    simp [lagGoesOn, lagF, opts, not_lt.mpr h1.le, this]

/-- a case of `c68_mean`, `c68_compose` and `c68_state`: an almost circular orbit, stored by its true anomaly -/
example (nu d1 d2 : ℝ) : ∃ s1 s2 s12,
    propagate (fxKern g) (.sc (fin d1)) (lazyKep g (opts (1 / 10) 5 5) .tru ⟨2, 1 / 100, 1, 2, 3, nu⟩) = (.ok (), s1) ∧
    propagate (fxKern g) (.sc (fin d2)) s1 = (.ok (), s2) ∧
    propagate (fxKern g) (.sc (fin (d1 + d2))) (lazyKep g (opts (1 / 10) 5 5) .tru ⟨2, 1 / 100, 1, 2, 3, nu⟩) = (.ok (), s12) ∧
    (∃ (M M' : ℝ) (z : ℤ), (get_mean_anomaly (fxKern g) s2).1 = .ok [fin M] ∧ (get_mean_anomaly (fxKern g) s12).1 = .ok [fin M'] ∧
      |M - M' + z * (2 * Real.pi)| ≤ 3 / 10) ∧
    ∃ c : ℝ → Cart ℝ, ObeysNewton 1 c ∧ ∃ cs c', (get_cartesian (fxKern g) s2).1 = .ok cs ∧ cs[0]? = some (Cart.fx c') ∧
      vlen (c'.r - (c (d1 + d2)).r) ≤ 1 / 2 := by
  have h := lazyKep_ellipse g (tol := 1 / 10) (d := 5) (mi := 5) .tru (k := ⟨2, 1 / 100, 1, 2, 3, nu⟩) (by norm_num) (by norm_num) (by norm_num)
  have hs := lazyKep_one g (opts (1 / 10) 5 5) .tru ⟨2, 1 / 100, 1, 2, 3, nu⟩
  have hl : ∀ x : ℝ, 0 ≤ x → x < 2 * Real.pi →
      ¬ HitLimit (lazyKep g (opts (1 / 10) 5 5) .tru ⟨2, 1 / 100, 1, 2, 3, nu⟩).opts (fin x) (fin (Kep.e (⟨2, 1 / 100, 1, 2, 3, nu⟩ : Kep ℝ))) :=
    fun x h0 h1 => not_hit_small (by norm_num) (by norm_num) (by norm_num) h0 h1
  obtain ⟨s1, p1, w1, o1, -⟩ := propagate_ok (fxKern g) hs.wfe rfl (dt := .sc (fin d1)) (dts := [fin d1]) rfl
  obtain ⟨s2, p2, w2, o2, -⟩ := propagate_ok (fxKern g) w1 (by rw [o1]; rfl) (dt := .sc (fin d2)) (dts := [fin d2]) rfl
  obtain ⟨s12, p12, w12, o12, -⟩ := propagate_ok (fxKern g) hs.wfe rfl (dt := .sc (fin (d1 + d2))) (dts := [fin (d1 + d2)]) rfl
  refine ⟨s1, s2, s12, p1, p2, p12, ?_, ?_⟩
  · obtain ⟨Ms, Ms', M, M', z, r1, r2, r3, r4, r5⟩ := c68_compose g (j := 0) _ _ _ d1 d2 hs h hl (.sc (fin d1)) (.sc (fin d2)) (.sc (fin (d1 + d2)))
      [fin d1] [fin d2] [fin (d1 + d2)] rfl rfl rfl rfl rfl rfl p1 p2 p12
    have e1 : Ms.length = 1 := by
      obtain ⟨r, hr, -⟩ := get_anomaly_val (fxKern g) w2 .mean
      have : (get_mean_anomaly (fxKern g) s2).1 = .ok _ := congrArg Prod.fst hr
      rw [r1] at this
      rw [Except.ok.inj this]; simp [(w2.1.kepCheck (fxKern g)).kep]
    have e2 : Ms'.length = 1 := by
      obtain ⟨r, hr, -⟩ := get_anomaly_val (fxKern g) w12 .mean
      have : (get_mean_anomaly (fxKern g) s12).1 = .ok _ := congrArg Prod.fst hr
      rw [r3] at this
      rw [Except.ok.inj this]; simp [(w12.1.kepCheck (fxKern g)).kep]
    obtain ⟨m, rfl⟩ := List.length_eq_one_iff.mp e1
    obtain ⟨m', rfl⟩ := List.length_eq_one_iff.mp e2
    obtain rfl : m = fin M := by simpa using r2
    obtain rfl : m' = fin M' := by simpa using r4
    refine ⟨M, M', z, r1, r3, ?_⟩
    have e3 : (lazyKep g (opts (1 / 10) 5 5) .tru ⟨2, 1 / 100, 1, 2, 3, nu⟩).type ≠ .mean := fun h => nomatch (show Anom.tru = Anom.mean from h)
    rw [if_neg e3] at r5
    have e4 : (lazyKep g (opts (1 / 10) 5 5) .tru ⟨2, 1 / 100, 1, 2, 3, nu⟩).degrees = false := rfl
    rw [e4] at r5
    simp only [angleOf, Bool.false_eq_true, if_false] at r5
    linarith
  · obtain ⟨M, Ms, c, -, -, hN, -, hstep⟩ := c68_state g _ hs (.inl rfl) 0 _ _ _ (by norm_num) h hl
    obtain ⟨cs, c', c1, c2, -, c3, -⟩ := hstep [d1, d2] s2 (by simp) 
      (.cons (.sc (fin d1)) [fin d1] d1 [d2] rfl rfl p1 (.cons (.sc (fin d2)) [fin d2] d2 [] rfl rfl p2 (.nil s2)))
    refine ⟨c, hN, cs, c', c1, c2, ?_⟩
    simp only [List.sum_cons, List.sum_nil, add_zero, List.length_cons, List.length_nil] at c3
    norm_num at c3
    linarith

end Orbit
end Pyorb
