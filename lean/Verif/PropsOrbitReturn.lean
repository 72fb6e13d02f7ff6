import Verif.PropsOrbitDefault

/-!
# Whole periods, and going back in time (C83)

Propagation sequences from the same object whose total times differ by a whole number of periods, as read from `orb.period`, end at the same state.
-/

set_option linter.unusedVariables false

namespace Pyorb
namespace Orbit
open Py FX Matrix
variable (g : KGarbage)

theorem parallel_to_two {x y z u v w p q r : ℝ} (ho : x * p + y * q + z * r = 0) (hx : x ^ 2 + y ^ 2 + z ^ 2 ≠ 0) (hp : p ^ 2 + q ^ 2 + r ^ 2 ≠ 0)
    (a1 : y * w - z * v = 0) (a2 : z * u - x * w = 0) (a3 : x * v - y * u = 0)
    (b1 : v * r - w * q = 0) (b2 : w * p - u * r = 0) (b3 : u * q - v * p = 0) : u = 0 ∧ v = 0 ∧ w = 0 := by
  have h1 : p * u + q * v + r * w = 0 := by
    refine (mul_eq_zero.mp (?_ : (x ^ 2 + y ^ 2 + z ^ 2) * (p * u + q * v + r * w) = 0)).resolve_left hx
    linear_combination (x * u + y * v + z * w) * ho + (q * -z + r * y) * a1 + (p * z - r * x) * a2 + (q * x - p * y) * a3
  refine ⟨?_, ?_, ?_⟩ <;> refine (mul_eq_zero.mp (?_ : (p ^ 2 + q ^ 2 + r ^ 2) * _ = 0)).resolve_left hp
  · linear_combination p * h1 - r * b2 + q * b3
  · linear_combination q * h1 + r * b1 - p * b3
  · linear_combination r * h1 - q * b1 + p * b2

/-- a state is determined by position, angular momentum and eccentricity vector -/
theorem state_unique {mu : ℝ} (hmu : mu ≠ 0) {c d : Cart ℝ} (hr : c.r = d.r) (hh : angMom c = angMom d) (he : eccVec mu c = eccVec mu d)
    (hr0 : vlen c.r ≠ 0) (hh0 : vlen (angMom c) ≠ 0) : c = d := by
  obtain ⟨x, y, z, a, b, e⟩ := c
  obtain ⟨x', y', z', a', b', e'⟩ := d
  have hx : x = x' := congrFun hr 0
  have hy : y = y' := congrFun hr 1
  have hz : z = z' := congrFun hr 2
  subst hx hy hz
  have he' : ∀ i, (Cart.v ⟨x, y, z, a, b, e⟩ ⨯₃ angMom ⟨x, y, z, a, b, e⟩) i = (Cart.v ⟨x, y, z, a', b', e'⟩ ⨯₃ angMom ⟨x, y, z, a', b', e'⟩) i := by
    intro i
    have := congrFun he i
    simp only [eccVec, Pi.sub_apply, Pi.smul_apply, smul_eq_mul] at this
    have h2 : Cart.r ⟨x, y, z, a, b, e⟩ = Cart.r ⟨x, y, z, a', b', e'⟩ := rfl
    rw [h2] at this
    exact mul_left_cancel₀ (one_div_ne_zero hmu) (sub_left_injective this)
  rw [← hh] at he'
  have k0 := congrFun hh 0
  have k1 := congrFun hh 1
  have k2 := congrFun hh 2
  have f0 := he' 0
  have f1 := he' 1
  have f2 := he' 2
  have hR : x ^ 2 + y ^ 2 + z ^ 2 ≠ 0 := by
    intro h
    apply hr0
    unfold vlen Cart.r
    rw [Real.sqrt_eq_zero']
    simp [dotProduct, Fin.sum_univ_three]; nlinarith
  set h := angMom ⟨x, y, z, a, b, e⟩ with hdef
  have hH : h 0 ^ 2 + h 1 ^ 2 + h 2 ^ 2 ≠ 0 := by
    intro h'
    apply hh0
    unfold vlen
    rw [Real.sqrt_eq_zero']
    simp only [dotProduct, Fin.sum_univ_three]; nlinarith
  have ho : x * h 0 + y * h 1 + z * h 2 = 0 := by
    simp [hdef, angMom, Cart.r, Cart.v, cross_apply]; ring
  have g0 : h 0 = y * e - z * b := by simp [hdef, angMom, Cart.r, Cart.v, cross_apply]
  have g1 : h 1 = z * a - x * e := by simp [hdef, angMom, Cart.r, Cart.v, cross_apply]
  have g2 : h 2 = x * b - y * a := by simp [hdef, angMom, Cart.r, Cart.v, cross_apply]
  simp [angMom, Cart.r, Cart.v, cross_apply] at k0 k1 k2
  simp only [Cart.v, cross_apply, Matrix.cons_val_zero, Matrix.cons_val_one, Matrix.cons_val] at f0 f1 f2
  obtain ⟨u, v, w⟩ := parallel_to_two (u := a - a') (v := b - b') (w := e - e') ho hR hH (by linarith) (by linarith) (by linarith)
    (by linarith) (by linarith) (by linarith)
  have := sub_eq_zero.mp u
  have := sub_eq_zero.mp v
  have := sub_eq_zero.mp w
  subst_vars
  rfl

theorem describes_unique {mu : ℝ} {k : Kep ℝ} (h : k.Adm mu) {c : Cart ℝ} (hc : DescribesOrbit mu k c) : c = k.state mu := by
  have hd := h.describes
  have hr : c.r = (k.state mu).r := by rw [hc.position, hd.position, hc.distance, hd.distance]
  have hp : 0 < (if k.e = 1 then 2 * k.a else k.a * |1 - k.e ^ 2|) := by
    split_ifs with h1
    · linarith [h.ha]
    · refine mul_pos h.ha (abs_pos.mpr fun h2 => h1 ?_)
      have h3 : (k.e - 1) * (k.e + 1) = 0 := by linarith
      rcases mul_eq_zero.mp h3 with h4 | h4
      · linarith
      · linarith [h.he]
  refine state_unique h.hmu.ne' hr (hc.ang_mom.trans hd.ang_mom.symm) (hc.ecc.trans hd.ecc.symm) ?_ ?_
  · rw [hc.distance]
    exact (div_pos hp h.hc).ne'
  · intro h0
    have h1 : (vlen (angMom c)) ^ 2 = mu * (if k.e = 1 then 2 * k.a else k.a * |1 - k.e ^ 2|) := by
      rw [hc.ang_mom, hc.normal]
      have hq : ∀ u : Fin 3 → ℝ, vlen u ^ 2 = u 0 * u 0 + u 1 * u 1 + u 2 * u 2 := by
        intro u
        unfold vlen
        rw [Real.sq_sqrt] <;> simp only [dotProduct, Fin.sum_univ_three]
        nlinarith [mul_self_nonneg (u 0), mul_self_nonneg (u 1), mul_self_nonneg (u 2)]
      rw [hq]
      have h2 := Real.sq_sqrt (mul_pos h.hmu hp).le
      have s1 := Real.sin_sq_add_cos_sq k.OM
      have s2 := Real.sin_sq_add_cos_sq k.i
      simp only [Pi.smul_apply, smul_eq_mul, Matrix.cons_val_zero, Matrix.cons_val_one, Matrix.cons_val]
      generalize √(mu * if k.e = 1 then 2 * k.a else k.a * |1 - k.e ^ 2|) = q at h2 ⊢
      linear_combination q ^ 2 * Real.sin k.i ^ 2 * s1 + q ^ 2 * s2 + h2
    rw [h0] at h1
    have := mul_pos h.hmu hp
    nlinarith

/-- the period an object answers is the time in which the mean anomaly grows by a turn -/
theorem Ellipse.period {n : Nat} {s : Orb FX} {j : Nat} {k : Kep ℝ} {mu tol : ℝ} (hs : OneEntryPerOrbit s n) (h : Ellipse g s j k mu tol)
    {Ps : List FX} {P : ℝ} (hP : (get_period (fxKern g) s).1 = .ok Ps) (hPj : Ps[j]? = some (fin P)) : √(mu / k.a ^ 3) * P = 2 * Real.pi := by
  obtain ⟨ks, hks, hk⟩ := h.read
  obtain ⟨m, hm, hmu⟩ := h.grav
  obtain ⟨Ps', ns, P', nn, p1, -, p2, -, hP0, hP3, -⟩ := c61_period g s hs ks hks j k.fx hk k.a mu rfl h.a_pos m hm hmu h.mu_pos
  rw [p1] at hP
  obtain rfl := Except.ok.inj hP
  rw [p2] at hPj
  obtain rfl : P' = P := FX.fin.inj (Option.some.inj hPj)
  obtain ⟨hn, hn2⟩ := motion_pos h.mu_pos h.a_pos
  have ha3 : 0 < k.a ^ 3 := pow_pos h.a_pos 3
  have h2 : (√(mu / k.a ^ 3) * P') ^ 2 = (2 * Real.pi) ^ 2 := by
    have : (√(mu / k.a ^ 3) * P') ^ 2 * k.a ^ 3 = (2 * Real.pi) ^ 2 * k.a ^ 3 := by
      linear_combination P' ^ 2 * hn2 + hP3
    exact mul_right_cancel₀ ha3.ne' this
  exact (pow_left_inj₀ (mul_pos hn hP0).le Real.two_pi_pos.le two_ne_zero).mp h2

/-- C83: two sequences of `N` and `N'` time steps from the same object (default solver options), whose total times differ by a whole number of periods as
read from `orb.period`, end in states on the same orbit, at positions at most `a (N + N') 1e-12/(1-e)` apart and with velocities at most
`a n (N + N') 1e-12/(1-e)^2` apart. -/
theorem c83_agree {n : Nat} (s s1 s2 : Orb FX) (hs : OneEntryPerOrbit s n) (hmode : s.auto = true ∨ s.direct = true) (j : Nat) (k : Kep ℝ)
    (mu : ℝ) (ho : s.opts = SolverOpts.dflt) (h : Ellipse g s j k mu tol0) (Ps : List FX) (P : ℝ) (hP : (get_period (fxKern g) s).1 = .ok Ps)
    (hPj : Ps[j]? = some (fin P)) (ds ds' : List ℝ) (hne : ds ≠ []) (hne' : ds' ≠ []) (hp : Steps g n j ds s s1) (hp' : Steps g n j ds' s s2)
    (z : ℤ) (hz : ds.sum = ds'.sum + z * P) :
    ∃ cs cs' c c', (get_cartesian (fxKern g) s1).1 = .ok cs ∧ cs[j]? = some (Cart.fx c) ∧ (get_cartesian (fxKern g) s2).1 = .ok cs' ∧
      cs'[j]? = some (Cart.fx c') ∧ SameOrbit mu c c' ∧
      vlen (c.r - c'.r) ≤ k.a * ((ds.length + ds'.length) * tol0) / (1 - k.e) ∧
      vlen (c.v - c'.v) ≤ k.a * √(mu / k.a ^ 3) * ((ds.length + ds'.length) * tol0) / (1 - k.e) ^ 2 := by
  obtain ⟨M, Ms, r1, r2, hM⟩ := h.mean g hs
  have hmu := h.mu_pos
  have ha := h.a_pos
  have h0 := h.e_nonneg
  have h1 := h.e_lt
  have hper := h.period g hs hP hPj
  have hl := default_converges ho h0 h1
  have ht : (0 : ℝ) ≤ tol0 := by norm_num [tol0]
  have hb : ∀ l : List ℝ, l ≠ [] → tol0 + (l.length - 1) * stepError s.type tol0 ≤ l.length * tol0 := by
    intro l hl
    have hlen : (1 : ℝ) ≤ l.length := by
      have : 0 < l.length := List.length_pos_iff.mpr hl
      exact_mod_cast this
    unfold stepError
    split
    · nlinarith
    · linarith
  obtain ⟨x, M', z1, -, -, -, -, -, q⟩ := Ellipse.steps g hp hs h hM hl
  obtain ⟨cs, E, c1, c2, c3⟩ := q hne hmode
  obtain ⟨x', M'', z2, -, -, -, -, -, q'⟩ := Ellipse.steps g hp' hs h hM hl
  obtain ⟨cs', E', c1', c2', c3'⟩ := q' hne' hmode
  refine ⟨cs, cs', _, _, c1, c2, c1', c2', ellipse_sameOrbit hmu ha h0 h1 _ _ _,
    points_close (k := k) (mu := mu) hmu ha h0 h1 s.degrees (z := z1 - z2 + z) ?_⟩
  have e1 := c3.trans (hb ds hne)
  have e2 := c3'.trans (hb ds' hne')
  have e3 : meanOf k.e E - (meanOf k.e E' + ((z1 - z2 + z : ℤ) : ℝ) * (2 * Real.pi))
      = (meanOf k.e E - (angleOf s.degrees M + √(mu / k.a ^ 3) * ds.sum + z1 * (2 * Real.pi)))
        - (meanOf k.e E' - (angleOf s.degrees M + √(mu / k.a ^ 3) * ds'.sum + z2 * (2 * Real.pi))) := by
    rw [hz]
    push_cast
    linear_combination (z : ℝ) * hper
  rw [e3]
  refine (abs_sub _ _).trans ?_
  linarith

/-- C83: after time steps whose total is a whole number of periods (0 included: forth and back) the object is where it was.  The state before is required
to belong to the elements, the true anomaly read being the exact one; a stored mean anomaly is required to be within one turn. -/
theorem c83_return {n : Nat} (s s' : Orb FX) (hs : OneEntryPerOrbit s n) (hmode : s.auto = true ∨ s.direct = true) (j : Nat) (k : Kep ℝ)
    (mu : ℝ) (ho : s.opts = SolverOpts.dflt) (h : Ellipse g s j k mu tol0) (Ps : List FX) (P : ℝ) (hP : (get_period (fxKern g) s).1 = .ok Ps)
    (hPj : Ps[j]? = some (fin P)) (hM : s.type = .mean → 0 ≤ angleOf s.degrees k.nu ∧ angleOf s.degrees k.nu ≤ 2 * Real.pi)
    (nus : List FX) (nu : ℝ) (hnu : (get_true_anomaly (fxKern g) s).1 = .ok nus) (hnuj : nus[j]? = some (fin nu))
    (cs0 : List (Cart FX)) (c0 : Cart ℝ) (hc0 : (get_cartesian (fxKern g) s).1 = .ok cs0) (hc0j : cs0[j]? = some c0.fx)
    (hdes : DescribesOrbit mu (Kep.inRad s.degrees { k with nu := nu }) c0)
    (ds : List ℝ) (hne : ds ≠ []) (hp : Steps g n j ds s s') (z : ℤ) (hz : ds.sum = z * P) :
    ∃ cs c, (get_cartesian (fxKern g) s').1 = .ok cs ∧ cs[j]? = some (Cart.fx c) ∧ SameOrbit mu c c0 ∧
      vlen (c.r - c0.r) ≤ k.a * ((ds.length + 1) * tol0) / (1 - k.e) ∧
      vlen (c.v - c0.v) ≤ k.a * √(mu / k.a ^ 3) * ((ds.length + 1) * tol0) / (1 - k.e) ^ 2 := by
  have hmu := h.mu_pos
  have ha := h.a_pos
  have h0 := h.e_nonneg
  have h1 := h.e_lt
  have hper := h.period g hs hP hPj
  have hl := default_converges ho h0 h1
  have ht : (0 : ℝ) < tol0 := by norm_num [tol0]
  obtain ⟨ks, hks, hk⟩ := h.read
  obtain ⟨nus', Es, Ms', nu', E0, M', a1, a2, a3, a4, a5, a6, a7, a8, -⟩ := c62 g s hs ks hks j k hk h0 h1 tol0 ht (by
    intro hty
    obtain ⟨b1, b2⟩ := hM hty
    refine ⟨5000, 5, by rw [ho, dflt_fin]; rfl, ?_⟩
    rw [ho, dflt_fin]
    exact c72_limit _ _ _ k.e h0 h1 b1 b2 163 dflt_steps (by norm_num))
  rw [a1] at hnu
  obtain rfl := Except.ok.inj hnu
  rw [a4] at hnuj
  obtain rfl : nu' = nu := FX.fin.inj (Option.some.inj hnuj)
  obtain ⟨M, Ms, r1, r2, hMM⟩ := h.mean g hs
  have hMs : Ms = Ms' := by
    rw [show readAnomaly (fxKern g) .mean s = (get_mean_anomaly (fxKern g) s).1 from rfl, a3] at r1
    exact (Except.ok.inj r1).symm
  obtain rfl : M = M' := by
    rw [hMs, a6] at r2
    exact (FX.fin.inj (Option.some.inj r2)).symm
  have hc : c0 = ellipseState (k.inRad s.degrees) √(mu / k.a ^ 3) (angleOf s.degrees E0) := by
    rw [← state_point hmu ha h0 h1 s.degrees a7]
    exact describes_unique (adm_ellipse hmu (k := { k with nu := nu' }) ha h0 h1 s.degrees) hdes
  obtain ⟨x, M1, z1, -, -, -, -, -, q⟩ := Ellipse.steps g hp hs h hMM hl
  obtain ⟨cs, E, c1, c2, c3⟩ := q hne hmode
  have hlen : (1 : ℝ) ≤ ds.length := by
    have : 0 < ds.length := List.length_pos_iff.mpr hne
    exact_mod_cast this
  have hb : tol0 + (ds.length - 1) * stepError s.type tol0 ≤ ds.length * tol0 := by
    unfold stepError
    split
    · nlinarith
    · linarith
  refine ⟨cs, _, c1, c2, by rw [hc]; exact ellipse_sameOrbit hmu ha h0 h1 _ _ _, ?_⟩
  rw [hc]
  refine points_close (k := k) (mu := mu) hmu ha h0 h1 s.degrees (z := z1 + z) ?_
  have e1 := c3.trans hb
  have e3 : meanOf k.e E - (meanOf k.e (angleOf s.degrees E0) + ((z1 + z : ℤ) : ℝ) * (2 * Real.pi))
      = (meanOf k.e E - (angleOf s.degrees M + √(mu / k.a ^ 3) * ds.sum + z1 * (2 * Real.pi)))
        + (angleOf s.degrees M - (angleOf s.degrees E0 - k.e * Real.sin (angleOf s.degrees E0))) := by
    rw [hz, meanOf_eli _ h1 (angleOf s.degrees E0)]
    push_cast
    linear_combination (z : ℝ) * hper
  rw [e3]
  refine (abs_add_le _ _).trans ?_
  linarith

/-- a case: an object in direct mode, e = 1/2, built from its elements with the true anomaly 1, moved by `d` and back -/
example (d : ℝ) : ∃ (s s' : Orb FX) (c0 : Cart ℝ) (cs : List (Cart FX)) (c : Cart ℝ), s.cart = [c0.fx] ∧ s.kep = [(⟨2, 1 / 2, 1, 2, 3, 1⟩ : Kep ℝ).fx] ∧
    Steps g 1 0 [d, -d] s s' ∧ (get_cartesian (fxKern g) s').1 = .ok cs ∧ cs[0]? = some (Cart.fx c) ∧
    vlen (c.r - c0.r) ≤ 12 / 1000000000000 := by
  have hadm : Kep.Adm 1 ⟨2, 1 / 2, 1, 2, 3, 1⟩ := ⟨one_pos, by norm_num, by norm_num, by
    have := Real.neg_one_le_cos 1
    show 0 < 1 + 1 / 2 * Real.cos 1
    linarith⟩
  obtain ⟨s, hsd⟩ : ∃ s : Orb FX, s = { lazyKep g SolverOpts.dflt .tru ⟨2, 1 / 2, 1, 2, 3, 1⟩ with
    direct := true, cart := [((⟨2, 1 / 2, 1, 2, 3, 1⟩ : Kep ℝ).state 1).fx] } := ⟨_, rfl⟩
  have hs : OneEntryPerOrbit s 1 := by subst hsd; exact ⟨rfl, rfl, rfl, rfl, ⟨_, rfl, rfl⟩, rfl, rfl, rfl⟩
  have hell : Ellipse g s 0 ⟨2, 1 / 2, 1, 2, 3, 1⟩ 1 tol0 := by
    subst hsd
    exact ⟨⟨_, rfl, rfl⟩, ⟨0, rfl, fx_mu g⟩, one_pos, by norm_num, by norm_num, by norm_num, ⟨5, 5000, dflt_fin⟩⟩
  obtain ⟨m, hm, hmu⟩ := hell.grav
  obtain ⟨ks, hks, hk⟩ := hell.read
  obtain ⟨Ps, ns, P, nn, p1, -, p2, -⟩ := c61_period g s hs ks hks 0 _ hk 2 1 rfl (by norm_num) m hm hmu one_pos
  obtain ⟨s', hp⟩ := c73_runs g (j := 0) [(.sc (fin d), [fin d], d), (.sc (fin (-d)), [fin (-d)], -d)] s hs (by subst hsd; rfl) (by
    intro p hp
    simp only [List.mem_cons, List.not_mem_nil, or_false] at hp
    rcases hp with rfl | rfl <;> exact ⟨rfl, rfl⟩)
  obtain ⟨cs, c, c1, c2, -, c3, -⟩ := c83_return g s s' hs (.inr (by subst hsd; rfl)) 0 ⟨2, 1 / 2, 1, 2, 3, 1⟩ 1 (by subst hsd; rfl) hell Ps P p1 p2
    (by subst hsd; exact nofun) [fin 1] 1 (by subst hsd; rfl) rfl _ _ (by subst hsd; rfl) rfl (by subst hsd; exact hadm.describes) [d, -d] (by simp) hp 0
    (by simp)
  refine ⟨s, s', _, cs, c, by subst hsd; rfl, by subst hsd; rfl, hp, c1, c2, c3.trans ?_⟩
  norm_num [tol0]

end Orbit
end Pyorb
