import Verif.Examples.NodeDensity

/-
Property C85: the picture made by nodedensity.
-/
namespace Osmium
open Spec

namespace Spec

/-- A place `v` on a line of `n` pixels, measured in pixels from the left, is drawn in pixel `c`: the one that it
is in (a place exactly between two pixels may be drawn in either), or the first or last one if it is outside. -/
def InPixel (n : ℤ) (v : ℚ) (c : ℤ) : Prop :=
  ∃ k, (k = ⌊v⌋ ∨ (v = ⌊v⌋ ∧ k = ⌊v⌋ - 1)) ∧ c = max 0 (min (n - 1) k)

/-- Pixels for a degree. -/
def pixelsPerDegree (size : ℤ) : ℤ := size / 180

/-- The pixel (column and line) for a position, in a picture of `2 * size` columns and `size` lines: columns from
west to east, lines from north to south. -/
def DrawnAt (size : ℤ) (p : Position) (cell : ℤ × ℤ) : Prop :=
  InPixel (2 * size) (((p.x : ℚ) / 10000000 + 180) * pixelsPerDegree size) cell.1 ∧
  InPixel size ((90 - (p.y : ℚ) / 10000000) * pixelsPerDegree size) cell.2

/-- The color for a count: black up to `lo`, white from `hi`, linear between. -/
def shade (lo hi count : ℤ) : ℤ := (max lo (min hi count) - lo) * 255 / (hi - lo)

end Spec

/-! ### Rounding -/

theorem ctrunc_nonneg (q : ℚ) : max 0 (ctrunc q) = max 0 ⌊q⌋ := by
  unfold ctrunc
  split
  · rfl
  · have h1 : ⌈q⌉ ≤ 0 := Int.ceil_le.2 (by push_cast; linarith)
    have h2 : ⌊q⌋ ≤ 0 := by
      have : (⌊q⌋ : ℚ) ≤ q := Int.floor_le q
      have : (⌊q⌋ : ℚ) ≤ 0 := by linarith
      exact_mod_cast this
    rw [max_eq_left h1, max_eq_left h2]

theorem ctrunc_bound (q : ℚ) (b : ℤ) (h : |q| ≤ b) : -b ≤ ctrunc q ∧ ctrunc q ≤ b := by
  have h1 := abs_le.1 h
  unfold ctrunc
  split
  · constructor
    · have : (0 : ℤ) ≤ ⌊q⌋ := Int.floor_nonneg.2 ‹_›
      have hb : (0 : ℚ) ≤ b := le_trans (abs_nonneg q) h
      have hb : 0 ≤ b := by exact_mod_cast hb
      omega
    · have : (⌊q⌋ : ℚ) ≤ b := le_trans (Int.floor_le q) h1.2
      exact_mod_cast this
  · constructor
    · have : (-b : ℚ) ≤ ⌈q⌉ := le_trans h1.1 (Int.le_ceil q)
      exact_mod_cast this
    · exact Int.ceil_le.2 h1.2

theorem intoRange_eq (n : ℤ) (hn : 1 ≤ n) (k : ℤ) : intoRange n k = max 0 (min (n - 1) k) := by
  unfold intoRange
  simp only
  split <;> split <;> omega

/-- A number near a multiple of a ten millionth. -/
theorem floor_near (m : ℤ) (c : ℚ) (h : |c - (m : ℚ) / 10000000| < 1 / 10000000) :
    ⌊c⌋ = ⌊(m : ℚ) / 10000000⌋ ∨
    ((m : ℚ) / 10000000 = ⌊(m : ℚ) / 10000000⌋ ∧ ⌊c⌋ = ⌊(m : ℚ) / 10000000⌋ - 1) := by
  have hv : ⌊(m : ℚ) / 10000000⌋ = m / 10000000 := by
    have := Rat.floor_intCast_div_natCast m 10000000
    exact_mod_cast this
  rw [hv]
  obtain ⟨h1, h2⟩ := abs_lt.1 h
  have e := Int.emod_add_mul_ediv m 10000000
  have r0 := Int.emod_nonneg m (show (10000000 : ℤ) ≠ 0 by norm_num)
  have r1 := Int.emod_lt_of_pos m (show (0 : ℤ) < 10000000 by norm_num)
  generalize m / 10000000 = k at *
  generalize m % 10000000 = r at *
  have em : (m : ℚ) / 10000000 = k + (r : ℚ) / 10000000 := by rw [← e]; push_cast; ring
  rw [em] at h1 h2 ⊢
  have r1' : (r : ℚ) ≤ 9999999 := by exact_mod_cast (show r ≤ 9999999 by omega)
  by_cases hr : r = 0
  · subst hr
    simp only [Int.cast_zero, zero_div, add_zero] at h1 h2 ⊢
    by_cases hc : (k : ℚ) ≤ c
    · left
      rw [Int.floor_eq_iff]
      constructor
      · exact hc
      · linarith
    · right
      refine ⟨trivial, ?_⟩
      rw [Int.floor_eq_iff]
      push_cast
      constructor <;> linarith
  · left
    have r2 : (1 : ℚ) ≤ r := by exact_mod_cast (show 1 ≤ r by omega)
    rw [Int.floor_eq_iff]
    constructor <;> linarith

theorem fix_close (x : ℤ) (h : InS32 x) :
    |fixToDouble x - (x : ℚ) / 10000000| ≤ 215 / 9007199254740992 ∧ |(x : ℚ) / 10000000| ≤ 215 := by
  have hx := abs_le_of_s32 h
  have h1 : |(x : ℚ) / 10000000| ≤ 215 := by
    rw [abs_div, abs_of_pos (show (0:ℚ) < 10000000 by norm_num), div_le_iff₀ (by norm_num)]
    linarith
  refine ⟨?_, h1⟩
  have := fl_err ((x : ℚ) / 10000000)
  unfold fixToDouble coordinatePrecision
  unfold ulp at this
  have h0 := abs_nonneg ((x : ℚ) / 10000000)
  linarith

/-- The computed place is near the exact one. -/
theorem place_close (a s : ℚ) (k : ℤ) (hk : 0 ≤ k ∧ k ≤ 200) (hs : |s| ≤ 400)
    (ha : |a - s| ≤ 215 / 9007199254740992) :
    |fl (fl a * k) - s * k| < 1 / 10000000 ∧ |fl (fl a * k)| ≤ 2147483647 := by
  have k0 : (0 : ℚ) ≤ k := by exact_mod_cast hk.1
  have k1 : (k : ℚ) ≤ 200 := by exact_mod_cast hk.2
  have e1 := fl_err a
  have e2 := fl_err (fl a * k)
  unfold ulp at e1 e2
  have ha2 : |a| ≤ 401 := by
    have : |a| ≤ |a - s| + |s| := by
      have := abs_add_le (a - s) s
      simpa using this
    linarith
  have e3 : |fl a - s| ≤ 700 / 9007199254740992 := by
    have := abs_add_le (fl a - a) (a - s)
    have e : fl a - a + (a - s) = fl a - s := by ring
    rw [e] at this
    linarith
  have e4 : |fl a * k - s * k| ≤ 140000 / 9007199254740992 := by
    have e : fl a * k - s * k = (fl a - s) * k := by ring
    rw [e, abs_mul, abs_of_nonneg k0]
    have := abs_nonneg (fl a - s)
    nlinarith
  have e5 : |s * k| ≤ 80000 := by
    rw [abs_mul, abs_of_nonneg k0]
    have := abs_nonneg s
    nlinarith
  have e6 : |fl a * k| ≤ 80001 := by
    have := abs_add_le (fl a * k - s * k) (s * k)
    rw [sub_add_cancel] at this
    linarith
  have e7 : |fl (fl a * k) - s * k| ≤ |fl (fl a * k) - fl a * k| + |fl a * k - s * k| := by
    have := abs_add_le (fl (fl a * k) - fl a * k) (fl a * k - s * k)
    rwa [sub_add_sub_cancel] at this
  constructor
  · linarith
  · have := abs_add_le (fl (fl a * k) - s * k) (s * k)
    rw [sub_add_cancel] at this
    linarith

/-! ### Where a node is counted -/

/-- The pixel for a position, as computed. -/
def densCell (size : ℤ) (p : Position) : ℤ × ℤ :=
  (intoRange (2 * size) (ctrunc (fl (fl (180 + fixToDouble p.x) * (size.tdiv 180 : ℤ)))),
   intoRange size (ctrunc (fl (fl (90 - fixToDouble p.y) * (size.tdiv 180 : ℤ)))))

theorem tdiv_180 {size : ℤ} (h : 1 ≤ size) : size.tdiv 180 = pixelsPerDegree size := by
  unfold pixelsPerDegree
  exact Int.tdiv_eq_ediv_of_nonneg (by omega)

theorem pixels_bound {size : ℤ} (h : 1 ≤ size ∧ size ≤ 32767) :
    0 ≤ pixelsPerDegree size ∧ pixelsPerDegree size ≤ 200 := by
  unfold pixelsPerDegree; omega

theorem column_close {size : ℤ} (h : 1 ≤ size ∧ size ≤ 32767) (x : ℤ) (hx : InS32 x) :
    let q := fl (fl (180 + fixToDouble x) * (size.tdiv 180 : ℤ))
    |q - ((x : ℚ) / 10000000 + 180) * pixelsPerDegree size| < 1 / 10000000 ∧ |q| ≤ 2147483647 := by
  intro q
  obtain ⟨c1, c2⟩ := fix_close x hx
  have := place_close (180 + fixToDouble x) ((x : ℚ) / 10000000 + 180) (pixelsPerDegree size) (pixels_bound h)
    (by have := abs_add_le ((x : ℚ) / 10000000) 180
        have e : |(180 : ℚ)| = 180 := by norm_num
        linarith)
    (by have e : 180 + fixToDouble x - ((x : ℚ) / 10000000 + 180) = fixToDouble x - (x : ℚ) / 10000000 := by ring
        rw [e]; exact c1)
  rw [← tdiv_180 h.1] at this ⊢
  exact this

theorem line_close {size : ℤ} (h : 1 ≤ size ∧ size ≤ 32767) (y : ℤ) (hy : InS32 y) :
    let q := fl (fl (90 - fixToDouble y) * (size.tdiv 180 : ℤ))
    |q - (90 - (y : ℚ) / 10000000) * pixelsPerDegree size| < 1 / 10000000 ∧ |q| ≤ 2147483647 := by
  intro q
  obtain ⟨c1, c2⟩ := fix_close y hy
  have := place_close (90 - fixToDouble y) (90 - (y : ℚ) / 10000000) (pixelsPerDegree size) (pixels_bound h)
    (by have := abs_sub (90 : ℚ) ((y : ℚ) / 10000000)
        have e : |(90 : ℚ)| = 90 := by norm_num
        linarith)
    (by have e : 90 - fixToDouble y - (90 - (y : ℚ) / 10000000) = (y : ℚ) / 10000000 - fixToDouble y := by ring
        rw [e, abs_sub_comm]; exact c1)
  rw [← tdiv_180 h.1] at this ⊢
  exact this

theorem inPixel_of_close {n : ℤ} (hn : 1 ≤ n) (v q : ℚ) (m : ℤ) (hm : v = (m : ℚ) / 10000000)
    (h : |q - v| < 1 / 10000000) : InPixel n v (intoRange n (ctrunc q)) := by
  subst hm
  refine ⟨⌊q⌋, floor_near m q h, ?_⟩
  rw [intoRange_eq n hn]
  have := ctrunc_nonneg q
  omega

theorem densCell_drawn {size : ℤ} (h : 1 ≤ size ∧ size ≤ 32767) (p : Position) (hp : p.WF) :
    DrawnAt size p (densCell size p) := by
  constructor
  · exact inPixel_of_close (by omega) _ _ ((p.x + 1800000000) * pixelsPerDegree size) (by push_cast; ring)
      (column_close h p.x hp.1).1
  · exact inPixel_of_close (by omega) _ _ ((900000000 - p.y) * pixelsPerDegree size) (by push_cast; ring)
      (line_close h p.y hp.2).1

theorem inPixel_range {n : ℤ} (hn : 1 ≤ n) {v : ℚ} {c : ℤ} (h : InPixel n v c) : 0 ≤ c ∧ c < n := by
  obtain ⟨k, -, rfl⟩ := h
  omega

/-! ### The run of the program -/

/-- The element of the array for a pixel. -/
def cellIndex (size : ℤ) (c : ℤ × ℤ) : ℤ := c.2 * (size * 2) + c.1

theorem mul_bounds {size a b : ℤ} (h : 1 ≤ size ∧ size ≤ 32767) (ha : 0 ≤ a ∧ a < 2 * size) (hb : 0 ≤ b ∧ b < size) :
    0 ≤ b * (size * 2) + a ∧ b * (size * 2) + a < size * 2 * size ∧ size * 2 * size ≤ 2147483647 := by
  refine ⟨by nlinarith, by nlinarith, by nlinarith⟩

theorem cellIndex_inj {size : ℤ} {a b : ℤ × ℤ} (ha : 0 ≤ a.1 ∧ a.1 < 2 * size) (hb : 0 ≤ b.1 ∧ b.1 < 2 * size)
    (h : cellIndex size a = cellIndex size b) : a = b := by
  unfold cellIndex at h
  have hs : 0 < size := by omega
  have e2 : a.2 = b.2 := by
    have h1 : (a.2 * (size * 2) + a.1) / (size * 2) = a.2 := by
      rw [Int.add_comm, Int.add_mul_ediv_right _ _ (by omega), Int.ediv_eq_zero_of_lt ha.1 (by omega)]; omega
    have h2 : (b.2 * (size * 2) + b.1) / (size * 2) = b.2 := by
      rw [Int.add_comm, Int.add_mul_ediv_right _ _ (by omega), Int.ediv_eq_zero_of_lt hb.1 (by omega)]; omega
    rw [← h1, h, h2]
  have e1 : a.1 = b.1 := by rw [e2] at h; omega
  exact Prod.ext e1 e2

/-- The state after some nodes. -/
structure DensCounted (size lo hi : ℤ) (ps : List Position) (d : Density) : Prop where
  xsize : d.xsize = size * 2
  ysize : d.ysize = size
  factor : d.factor = size.tdiv 180
  lowEq : d.min = lo
  highEq : d.max = hi
  diff : d.diff = hi - lo
  image : d.image = none
  counts : ∀ n : Nat, d.counts n =
    min 65534 ((ps.countP (fun p => decide (cellIndex size (densCell size p) = n)) : ℕ) : ℤ)
  above : ∀ n, d.counts n ≤ d.maxCount
  hit : d.maxCount = 0 ∨ ∃ p ∈ ps, d.counts (cellIndex size (densCell size p)).toNat = d.maxCount

theorem densityNew_counted {size lo hi : ℤ} (h : 1 ≤ size ∧ size ≤ 32767) (hd : InS32 (hi - lo)) :
    ∃ d, densityNew size lo hi = .ok d ∧ DensCounted size lo hi [] d := by
  have h1 : InS32 (size * 2) := by unfold InS32; omega
  have h2 : InS32 (size * 2 * size) := by
    have := (mul_bounds h (a := 0) (b := 0) (by omega) (by omega)).2.2
    have : 0 ≤ size * 2 * size := by nlinarith
    unfold InS32; omega
  refine ⟨_, by unfold densityNew int32; rw [if_pos h1]; show (do let _ ← (if InS32 (size * 2 * size) then _ else _ : Res ℤ); _) = _; rw [if_pos h2, if_pos hd]; rfl, ?_⟩
  exact { xsize := rfl, ysize := rfl, factor := rfl, lowEq := rfl, highEq := rfl, diff := rfl, image := rfl,
          counts := fun n => rfl, above := fun n => le_refl _, hit := .inl rfl }

theorem densityNode_counted {size lo hi : ℤ} (h : 1 ≤ size ∧ size ≤ 32767) {ps : List Position} {d : Density}
    (c : DensCounted size lo hi ps d) (p : Position) (hp : p.WF) :
    ∃ d', densityNode d p = .ok d' ∧ DensCounted size lo hi (ps ++ [p]) d' := by
  have hdr := densCell_drawn h p hp
  have r1 := inPixel_range (by omega) hdr.1
  have r2 := inPixel_range (by omega) hdr.2
  obtain ⟨b1, b2, b3⟩ := mul_bounds h r1 r2
  have i1 : InS32 (ctrunc (fl (fl (180 + fixToDouble p.x) * (size.tdiv 180 : ℤ)))) := by
    have := ctrunc_bound _ 2147483647 (by exact_mod_cast (column_close h p.x hp.1).2)
    unfold InS32; omega
  have i2 : InS32 (ctrunc (fl (fl (90 - fixToDouble p.y) * (size.tdiv 180 : ℤ)))) := by
    have := ctrunc_bound _ 2147483647 (by exact_mod_cast (line_close h p.y hp.2).2)
    unfold InS32; omega
  have i3 : InS32 (cellIndex size (densCell size p)) := by unfold InS32 cellIndex; omega
  have hi : densityIndex d p = .ok (cellIndex size (densCell size p)) := by
    unfold densityIndex doubleToInt int32
    rw [c.factor, if_pos i1]
    show (do let y ← (if InS32 (ctrunc (fl (fl (90 - fixToDouble p.y) * (size.tdiv 180 : ℤ)))) then _ else _ : Res ℤ); _) = _
    rw [if_pos i2]
    show (if InS32 _ then _ else _) = _
    rw [c.xsize, c.ysize]
    have e : intoRange size (ctrunc (fl (fl (90 - fixToDouble p.y) * (size.tdiv 180 : ℤ)))) * (size * 2) +
        intoRange (size * 2) (ctrunc (fl (fl (180 + fixToDouble p.x) * (size.tdiv 180 : ℤ)))) =
        cellIndex size (densCell size p) := by
      unfold cellIndex densCell
      rw [Int.mul_comm 2 size]
    rw [e, if_pos i3]
  have hb : 0 ≤ cellIndex size (densCell size p) ∧ cellIndex size (densCell size p) < d.xsize * d.ysize := by
    rw [c.xsize, c.ysize]; exact ⟨b1, b2⟩
  unfold densityNode
  rw [hi]
  simp only [densityCount]
  rw [if_pos hb]
  refine ⟨_, rfl, ?_⟩
  generalize hk : cellIndex size (densCell size p) = k at *
  have hc := c.counts k.toNat
  have hkn : (k.toNat : ℤ) = k := by omega
  have ha := c.above k.toNat
  have cnt : ∀ n : ℕ, ((ps ++ [p]).countP (fun p => decide (cellIndex size (densCell size p) = n))) =
      ps.countP (fun p => decide (cellIndex size (densCell size p) = n)) + if n = k.toNat then 1 else 0 := by
    intro n
    rw [List.countP_append]
    congr 1
    simp only [List.countP_cons, List.countP_nil, hk, decide_eq_true_eq, Nat.zero_add]
    by_cases e : n = k.toNat
    · rw [if_pos e, if_pos (by omega)]
    · rw [if_neg e, if_neg (by omega)]
  refine { xsize := c.xsize, ysize := c.ysize, factor := c.factor, lowEq := c.lowEq, highEq := c.highEq, diff := c.diff,
           image := c.image, counts := ?_, above := ?_, hit := ?_ }
  · intro n
    simp only
    rw [cnt]
    have hn := c.counts n
    by_cases e : n = k.toNat
    · subst e
      rw [if_pos rfl, if_pos rfl]
      push_cast
      split <;> omega
    · rw [if_neg e, if_neg e]
      simpa using hn
  · intro n
    simp only
    have hn := c.above n
    by_cases e : n = k.toNat
    · subst e
      rw [if_pos rfl]
      split <;> split <;> omega
    · rw [if_neg e]
      split <;> split <;> omega
  · simp only
    by_cases hlt : d.counts k.toNat < 65535 - 1
    · rw [if_pos hlt]
      by_cases hg : d.counts k.toNat + 1 > d.maxCount
      · right
        rw [if_pos hg]
        exact ⟨p, by simp, by rw [hk, if_pos rfl]⟩
      · rw [if_neg hg]
        rcases c.hit with h0 | ⟨q, hq, h0⟩
        · have : 0 ≤ d.counts k.toNat := by rw [hc]; omega
          omega
        · right
          refine ⟨q, by simp [hq], ?_⟩
          by_cases e : (cellIndex size (densCell size q)).toNat = k.toNat
          · rw [e] at h0; omega
          · rw [if_neg e]; exact h0
    · rw [if_neg hlt, if_neg (by omega)]
      rcases c.hit with h0 | ⟨q, hq, h0⟩
      · exact .inl h0
      · right
        refine ⟨q, by simp [hq], ?_⟩
        by_cases e : (cellIndex size (densCell size q)).toNat = k.toNat
        · rw [if_pos e, ← e]; exact h0
        · rw [if_neg e]; exact h0

theorem densityRun_counted {size lo hi : ℤ} (h : 1 ≤ size ∧ size ≤ 32767) (calls : List Cb) :
    ∀ (ps : List Position) (d : Density), DensCounted size lo hi ps d → (∀ p ∈ nodesBeforeEnd calls, p.WF) →
    ∃ d', DensCounted size lo hi (ps ++ nodesBeforeEnd calls) d' ∧
      (densityH.run (.ok d) calls).1 = if Cb.after .node ∈ calls then densityImage d' else .ok d' := by
  induction calls with
  | nil => intro ps d c _; exact ⟨d, by simpa [nodesBeforeEnd] using c, rfl⟩
  | cons cb calls ih =>
    intro ps d c hw
    have skip : nodesBeforeEnd (cb :: calls) = nodesBeforeEnd calls → cb ≠ .after .node →
        densityH.step (.ok d) cb = (.ok d, cb, false) →
        ∃ d', DensCounted size lo hi (ps ++ nodesBeforeEnd (cb :: calls)) d' ∧
          (densityH.run (.ok d) (cb :: calls)).1 =
            if Cb.after .node ∈ cb :: calls then densityImage d' else .ok d' := by
      intro e1 e2 e3
      rw [e1] at hw ⊢
      obtain ⟨d', g1, g2⟩ := ih ps d c hw
      refine ⟨d', g1, ?_⟩
      simp only [HandlerM.run, e3, Bool.false_eq_true, if_false, g2, List.mem_cons, e2.symm, false_or]
    match cb with
    | .obj (.node n) =>
      rw [nodesBeforeEnd] at hw ⊢
      obtain ⟨d1, f1, f2⟩ := densityNode_counted h c n.position (hw _ List.mem_cons_self)
      obtain ⟨d', g1, g2⟩ := ih _ d1 f2 (fun p hp => hw p (List.mem_cons_of_mem _ hp))
      refine ⟨d', by rwa [List.append_assoc] at g1, ?_⟩
      have e3 : densityH.step (.ok d) (.obj (.node n)) = (.ok d1, .obj (.node n), false) := by
        simp only [densityH, f1]
      simp only [HandlerM.run, e3, Bool.false_eq_true, if_false, g2, List.mem_cons, reduceCtorEq, false_or]
    | .after .node =>
      refine ⟨d, by simpa [nodesBeforeEnd] using c, ?_⟩
      simp only [HandlerM.run, densityH, if_true, List.mem_cons, true_or]
    | .after .way => exact skip rfl (by simp) rfl
    | .after .relation => exact skip rfl (by simp) rfl
    | .after .area => exact skip rfl (by simp) rfl
    | .after .unknown => exact skip rfl (by simp) rfl
    | .before t => exact skip rfl (by simp) rfl
    | .init m => exact skip rfl (by simp) rfl
    | .final => exact skip rfl (by simp) rfl
    | .obj (.way w) => exact skip rfl (by simp) rfl
    | .obj (.relation r) => exact skip rfl (by simp) rfl

theorem densityShade_eq {size lo hi : ℤ} (hr : 0 ≤ lo ∧ lo < hi ∧ hi ≤ 2147483647) {ps : List Position} {d : Density}
    (c : DensCounted size lo hi ps d) (v : ℤ) (hv : 0 ≤ v ∧ v ≤ 65534) : densityShade d v = .ok (shade lo hi v) := by
  have hcl : (if (if v < d.min then d.min else v) > d.max then d.max else (if v < d.min then d.min else v)) =
      max lo (min hi v) := by
    rw [c.lowEq, c.highEq]; split <;> split <;> omega
  have hb : 0 ≤ max lo (min hi v) - lo ∧ max lo (min hi v) - lo ≤ 65534 ∧ max lo (min hi v) - lo ≤ hi - lo := by omega
  have hs : 0 ≤ (max lo (min hi v) - lo) * 255 / (hi - lo) ∧ (max lo (min hi v) - lo) * 255 / (hi - lo) ≤ 255 := by
    constructor
    · exact Int.ediv_nonneg (by omega) (by omega)
    · have : (max lo (min hi v) - lo) * 255 / (hi - lo) < 256 :=
        Int.ediv_lt_of_lt_mul (by omega) (by nlinarith)
      omega
  unfold densityShade int32
  simp only [hcl, c.diff]
  rw [c.lowEq, if_pos (show InS32 (max lo (min hi v) - lo) by unfold InS32; omega)]
  show (do let v ← (if InS32 ((max lo (min hi v) - lo) * 255) then _ else _ : Res ℤ); _) = _
  rw [if_pos (show InS32 ((max lo (min hi v) - lo) * 255) by unfold InS32; omega)]
  show (if hi - lo = 0 then _ else _) = _
  rw [if_neg (by omega), Int.tdiv_eq_ediv_of_nonneg (show 0 ≤ (max lo (min hi v) - lo) * 255 by omega),
    if_pos (show InS32 _ by unfold InS32; omega)]
  show Except.ok (_ % 256) = _
  rw [Int.emod_eq_of_lt hs.1 (by omega)]
  rfl

theorem densityRow_eq {d : Density} {f : Nat → ℤ} (hf : ∀ n, densityShade d (d.counts n) = .ok (f n)) (k : Nat) :
    ∀ n, densityRow d n k = .ok ((List.range k).map fun i => f (n + i)) := by
  induction k with
  | zero => intro n; rfl
  | succ k ih =>
    intro n
    rw [densityRow, hf]
    simp only [ih]
    rw [List.range_succ_eq_map, List.map_cons, List.map_map]
    congr 2
    apply List.map_congr_left
    intro i _
    simp only [Function.comp_apply]
    congr 1
    omega

theorem densityRows_eq {d : Density} {f : Nat → ℤ} (hf : ∀ n, densityShade d (d.counts n) = .ok (f n)) (k : Nat) :
    ∀ n, densityRows d n k = .ok ((List.range k).map fun j => (List.range d.xsize.toNat).map fun i =>
      f (n + (j * d.xsize.toNat + i))) := by
  induction k with
  | zero => intro n; rfl
  | succ k ih =>
    intro n
    rw [densityRows, densityRow_eq hf]
    simp only [ih]
    rw [List.range_succ_eq_map, List.map_cons, List.map_map]
    congr 2
    · simp
    · apply List.map_congr_left
      intro j _
      simp only [Function.comp_apply]
      apply List.map_congr_left
      intro i _
      congr 1
      rw [Nat.succ_mul]
      omega

/-- **C85** (nodedensity): for sizes up to 32767 and 0 ≤ MIN < MAX, and whatever calls a file leads to, the program
has no undefined behaviour, and the picture is written exactly if there is an end of nodes.  It has `2 * size`
columns and `size` lines, and the color of each pixel shows how many of the nodes (before that end) are drawn there:
at most 65534. The largest such number is the one reported. -/
theorem density_picture_partial (size lo hi : ℤ) (h : 1 ≤ size ∧ size ≤ 32767)
    (hr : 0 ≤ lo ∧ lo < hi ∧ hi ≤ 2147483647) (calls : List Cb) (hw : ∀ p ∈ nodesBeforeEnd calls, p.WF) :
    ∃ (d : Density) (cell : Position → ℤ × ℤ), densityMain size lo hi calls = .ok d ∧
      (∀ p, p.WF → DrawnAt size p (cell p)) ∧
      let count : ℤ → ℤ → ℤ := fun x y =>
        min 65534 (((nodesBeforeEnd calls).countP fun p => decide (cell p = (x, y)) : ℕ) : ℤ)
      (d.image = if Cb.after .node ∈ calls then
          some ((List.range size.toNat).map fun (y : ℕ) => (List.range (2 * size).toNat).map fun (x : ℕ) =>
            shade lo hi (count x y))
        else none) ∧
      (∀ x y, count x y ≤ d.maxCount) ∧
      (d.maxCount = 0 ∨ ∃ p ∈ nodesBeforeEnd calls, count (cell p).1 (cell p).2 = d.maxCount) := by
  obtain ⟨d0, n1, n2⟩ := densityNew_counted (lo := lo) (hi := hi) h (by unfold InS32; omega)
  obtain ⟨d1, r1, r2⟩ := densityRun_counted h calls [] d0 n2 hw
  rw [List.nil_append] at r1
  have idx : ∀ x y : ℤ, 0 ≤ x → x < 2 * size → 0 ≤ y → y < size →
      ((nodesBeforeEnd calls).countP fun p => decide (densCell size p = (x, y))) =
      (nodesBeforeEnd calls).countP fun p =>
        decide (cellIndex size (densCell size p) = ((cellIndex size (x, y)).toNat : ℤ)) := by
    intro x y x0 x1 y0 y1
    apply List.countP_congr
    intro p hp
    have hb := (mul_bounds h ⟨x0, x1⟩ ⟨y0, y1⟩).1
    have e : ((cellIndex size (x, y)).toNat : ℤ) = cellIndex size (x, y) := by unfold cellIndex; simp only; omega
    rw [e, decide_eq_true_eq, decide_eq_true_eq]
    have r := inPixel_range (by omega) (densCell_drawn h p (hw p hp)).1
    exact ⟨fun e => by rw [e], fun e => cellIndex_inj r ⟨x0, x1⟩ e⟩
  have cnt0 : ∀ x y : ℤ, ¬ (0 ≤ x ∧ x < 2 * size ∧ 0 ≤ y ∧ y < size) →
      ((nodesBeforeEnd calls).countP fun p => decide (densCell size p = (x, y))) = 0 := by
    intro x y hn
    rw [List.countP_eq_zero]
    intro p hp he
    rw [decide_eq_true_eq] at he
    have q1 := inPixel_range (by omega) (densCell_drawn h p (hw p hp)).1
    have q2 := inPixel_range (by omega) (densCell_drawn h p (hw p hp)).2
    rw [he] at q1 q2
    exact hn ⟨q1.1, q1.2, q2.1, q2.2⟩
  have mx : ∀ (d : Density), d.maxCount = d1.maxCount →
      let count : ℤ → ℤ → ℤ := fun x y =>
        min 65534 (((nodesBeforeEnd calls).countP fun p => decide (densCell size p = (x, y)) : ℕ) : ℤ)
      (∀ x y, count x y ≤ d.maxCount) ∧
      (d.maxCount = 0 ∨ ∃ p ∈ nodesBeforeEnd calls,
        count (densCell size p).1 (densCell size p).2 = d.maxCount) := by
    intro d hd count
    rw [hd]
    constructor
    · intro x y
      by_cases hin : 0 ≤ x ∧ x < 2 * size ∧ 0 ≤ y ∧ y < size
      · have := r1.above (cellIndex size (x, y)).toNat
        rw [r1.counts] at this
        simp only [count]
        rw [idx x y hin.1 hin.2.1 hin.2.2.1 hin.2.2.2]
        exact this
      · simp only [count]
        rw [cnt0 x y hin]
        have := r1.above 0
        rw [r1.counts] at this
        push_cast
        omega
    · rcases r1.hit with h0 | ⟨p, hp, h0⟩
      · exact .inl h0
      · right
        refine ⟨p, hp, ?_⟩
        have q1 := inPixel_range (by omega) (densCell_drawn h p (hw p hp)).1
        have q2 := inPixel_range (by omega) (densCell_drawn h p (hw p hp)).2
        rw [r1.counts] at h0
        simp only [count]
        rw [idx _ _ q1.1 q1.2 q2.1 q2.2]
        exact h0
  have fin : ∀ r : Res Density, (densityH.step r .final).1 = r := by
    intro r
    cases r with
    | ok d => rfl
    | error e => rfl
  have hmain : densityMain size lo hi calls = if Cb.after .node ∈ calls then densityImage d1 else .ok d1 := by
    unfold densityMain readWith
    rw [n1, r2, fin]
  by_cases ha : Cb.after .node ∈ calls
  · rw [if_pos ha] at hmain
    have hsh : ∀ n, densityShade d1 (d1.counts n) = .ok (shade lo hi (d1.counts n)) := by
      intro n
      apply densityShade_eq hr r1
      rw [r1.counts]
      omega
    have hrows := densityRows_eq hsh d1.ysize.toNat 0
    have himg : densityImage d1 = .ok { d1 with image := some ((List.range d1.ysize.toNat).map fun j =>
        (List.range d1.xsize.toNat).map fun i => shade lo hi (d1.counts (0 + (j * d1.xsize.toNat + i)))) } := by
      unfold densityImage
      rw [if_neg (by rw [r1.xsize, r1.ysize]; omega), hrows]
    refine ⟨_, densCell size, hmain.trans himg, densCell_drawn h, ?_, mx _ rfl⟩
    rw [if_pos ha]
    simp only
    congr 1
    rw [r1.ysize, r1.xsize, Int.mul_comm size 2]
    apply List.map_congr_left
    intro y hy
    apply List.map_congr_left
    intro x hx
    rw [List.mem_range] at hx hy
    rw [r1.counts, idx x y (by omega) (by omega) (by omega) (by omega)]
    have e : 0 + (y * (2 * size).toNat + x) = (cellIndex size (x, y)).toNat := by
      have e1 : ((2 * size).toNat : ℤ) = 2 * size := by omega
      have : ((0 + (y * (2 * size).toNat + x) : ℕ) : ℤ) = cellIndex size (x, y) := by
        unfold cellIndex
        push_cast [e1]
        ring
      omega
    rw [e]
  · rw [if_neg ha] at hmain
    refine ⟨d1, densCell size, hmain, densCell_drawn h, ?_, mx _ rfl⟩
    rw [if_neg ha]
    exact r1.image

/-! ### What is not as promised -/

/-- **C85, disagreement**: in a picture of less than 180 lines, all nodes are drawn in the first pixel. -/
theorem density_one_pixel (size : ℤ) (h : 1 ≤ size ∧ size < 180) (p : Position) (cell : ℤ × ℤ)
    (hd : DrawnAt size p cell) : cell = (0, 0) := by
  obtain ⟨h1, h2⟩ := hd
  have e : pixelsPerDegree size = 0 := by unfold pixelsPerDegree; omega
  rw [e] at h1 h2
  have z : ∀ (v : ℚ) (n c : ℤ), 1 ≤ n → InPixel n (v * ((0 : ℤ) : ℚ)) c → c = 0 := by
    intro v n c hn ⟨k, hk, hc⟩
    rw [Int.cast_zero, mul_zero, Int.floor_zero] at hk
    rcases hk with rfl | ⟨-, rfl⟩
    · omega
    · omega
  exact Prod.ext (z _ _ _ (by omega) h1) (z _ _ _ (by omega) h2)

/-- **C85, disagreement**: unless SIZE is a multiple of 180, the world does not fill the picture: the columns and
lines after `360 * (SIZE / 180)` and `180 * (SIZE / 180)` only get nodes outside of the world. -/
theorem density_unused (size : ℤ) (h : 1 ≤ size) (p : Position) (hx : p.x ≤ 1800000000) (hy : -900000000 ≤ p.y)
    (cell : ℤ × ℤ) (hd : DrawnAt size p cell) :
    cell.1 ≤ 360 * (size / 180) ∧ cell.2 ≤ 180 * (size / 180) := by
  have k0 : 0 ≤ size / 180 := by omega
  have k0' : (0 : ℚ) ≤ (size / 180 : ℤ) := by exact_mod_cast k0
  have z : ∀ (v : ℚ) (b n c : ℤ), 0 ≤ b → v ≤ b → InPixel n v c → c ≤ b := by
    intro v b n c hb hv ⟨k, hk, hc⟩
    have hf : ⌊v⌋ ≤ b := by
      have : (⌊v⌋ : ℚ) ≤ b := le_trans (Int.floor_le v) hv
      exact_mod_cast this
    rcases hk with rfl | ⟨-, rfl⟩ <;> omega
  obtain ⟨h1, h2⟩ := hd
  unfold pixelsPerDegree at h1 h2
  constructor
  · refine z _ _ _ _ (by omega) ?_ h1
    push_cast
    have : (p.x : ℚ) ≤ 1800000000 := by exact_mod_cast hx
    exact mul_le_mul_of_nonneg_right (by linarith) k0'
  · refine z _ _ _ _ (by omega) ?_ h2
    push_cast
    have : (-900000000 : ℚ) ≤ p.y := by exact_mod_cast hy
    exact mul_le_mul_of_nonneg_right (by linarith) k0'

/-- **C85, disagreement**: with MIN = MAX the program divides by zero when it writes the picture. -/
theorem density_equal_limits (size lo : ℤ) (h : 1 ≤ size ∧ size ≤ 32767) (hl : 0 ≤ lo ∧ lo ≤ 2147483647)
    (calls : List Cb) (hw : ∀ p ∈ nodesBeforeEnd calls, p.WF) (ha : Cb.after .node ∈ calls) :
    densityMain size lo lo calls = .error .ub := by
  obtain ⟨d0, n1, n2⟩ := densityNew_counted (lo := lo) (hi := lo) h (by unfold InS32; omega)
  obtain ⟨d1, r1, r2⟩ := densityRun_counted h calls [] d0 n2 hw
  have hs : densityShade d1 (d1.counts 0) = .error .ub := by
    have hcl : (if (if d1.counts 0 < d1.min then d1.min else d1.counts 0) > d1.max then d1.max
        else (if d1.counts 0 < d1.min then d1.min else d1.counts 0)) = lo := by
      rw [r1.lowEq, r1.highEq]; split <;> split <;> omega
    unfold densityShade int32
    simp only [hcl, r1.diff]
    rw [r1.lowEq, Int.sub_self, if_pos (show InS32 0 by unfold InS32; omega)]
    rfl
  obtain ⟨n, hn⟩ : ∃ n, d1.ysize.toNat = n + 1 := ⟨d1.ysize.toNat - 1, by rw [r1.ysize]; omega⟩
  obtain ⟨m, hm⟩ : ∃ m, d1.xsize.toNat = m + 1 := ⟨d1.xsize.toNat - 1, by rw [r1.xsize]; omega⟩
  have hi : densityImage d1 = .error .ub := by
    unfold densityImage
    rw [if_neg (by rw [r1.xsize, r1.ysize]; omega), hn, densityRows, hm, densityRow, hs]
  unfold densityMain readWith
  rw [n1, r2, if_pos ha, hi]
  rfl

/-- **C85, disagreement**: sizes from 32768 on overflow an `int`. -/
theorem density_too_large (size lo hi : ℤ) (h : 32768 ≤ size) (calls : List Cb) :
    densityMain size lo hi calls = .error .ub := by
  have hn : densityNew size lo hi = .error .ub := by
    unfold densityNew int32
    by_cases h1 : InS32 (size * 2)
    · rw [if_pos h1]
      show (do let _ ← (if InS32 (size * 2 * size) then _ else _ : Res ℤ); _) = _
      rw [if_neg (show ¬ InS32 (size * 2 * size) by unfold InS32; rintro ⟨-, h2⟩; nlinarith)]
      rfl
    · rw [if_neg h1]
      rfl
  unfold densityMain readWith
  rw [hn]
  cases calls with
  | nil => rfl
  | cons c cs => rfl

/-- Every step of the computation of an index fails, if at all, with undefined behaviour. -/
theorem densityNode_empty {d : Density} (hx : d.xsize = 0) (p : Position) : densityNode d p = .error .ub := by
  have hi : ∀ q : ℚ, doubleToInt q = .error .ub ∨ ∃ v, doubleToInt q = .ok v := by
    intro q
    unfold doubleToInt int32
    split
    · exact .inr ⟨_, rfl⟩
    · exact .inl rfl
  have hc : ∀ n, densityCount d n = .error .ub := by
    intro n
    unfold densityCount
    rw [if_neg (by rw [hx]; omega)]
  unfold densityNode densityIndex
  rcases hi (fl (fl (180 + fixToDouble p.x) * d.factor)) with e | ⟨v, e⟩
  · rw [e]; rfl
  rcases hi (fl (fl (90 - fixToDouble p.y) * d.factor)) with e' | ⟨v', e'⟩
  · rw [e, e']; rfl
  rw [e, e']
  simp only [bind, Except.bind]
  unfold int32
  by_cases hb : InS32 (intoRange d.ysize v' * d.xsize + intoRange d.xsize v)
  · rw [if_pos hb]; exact hc _
  · rw [if_neg hb]

/-- **C85, disagreement**: SIZE 0, or a text that is no number, is not refused: the program uses memory that is
not its own with the first node, and a picture that does not exist without any node. -/
theorem density_no_lines (lo hi : ℤ) (hl : InS32 (hi - lo)) (calls : List Cb) (ha : Cb.after .node ∈ calls) :
    densityMain 0 lo hi calls = .error .ub := by
  have hn : densityNew 0 lo hi = .ok ⟨0, 0, 0, lo, hi, hi - lo, 0, fun _ => 0, none⟩ := by
    have h1 : int32 (0 * 2) = .ok 0 := rfl
    have h2 : int32 (0 * 0) = .ok 0 := rfl
    have h3 : int32 (hi - lo) = .ok (hi - lo) := if_pos hl
    unfold densityNew
    rw [h1]
    simp only [bind, Except.bind]
    rw [h2]
    simp only
    rw [h3]
    rfl
  have hr : ∀ (calls : List Cb) (d : Density), d.xsize = 0 → Cb.after .node ∈ calls →
      (densityH.run (.ok d) calls).1 = .error .ub := by
    intro calls
    induction calls with
    | nil => intro d _ h; cases h
    | cons cb calls ih =>
      intro d hx h
      have skip : cb ≠ .after .node → densityH.step (.ok d) cb = (.ok d, cb, false) →
          (densityH.run (.ok d) (cb :: calls)).1 = .error .ub := by
        intro e2 e3
        simp only [HandlerM.run, e3, Bool.false_eq_true, if_false]
        refine ih d hx ?_
        rcases List.mem_cons.1 h with h | h
        · exact absurd h.symm e2
        · exact h
      match cb with
      | .obj (.node n) =>
        have e3 : densityH.step (.ok d) (.obj (.node n)) = (.error .ub, .obj (.node n), true) := by
          simp only [densityH, densityNode_empty hx]
        simp only [HandlerM.run, e3, if_true]
      | .after .node =>
        simp only [HandlerM.run, densityH, if_true]
        unfold densityImage
        rw [if_pos (.inl (by omega))]
      | .after .way => exact skip (by simp) rfl
      | .after .relation => exact skip (by simp) rfl
      | .after .area => exact skip (by simp) rfl
      | .after .unknown => exact skip (by simp) rfl
      | .before t => exact skip (by simp) rfl
      | .init m => exact skip (by simp) rfl
      | .final => exact skip (by simp) rfl
      | .obj (.way w) => exact skip (by simp) rfl
      | .obj (.relation r) => exact skip (by simp) rfl
  unfold densityMain readWith
  rw [hn]
  have := hr calls ⟨0, 0, 0, lo, hi, hi - lo, 0, fun _ => 0, none⟩ rfl ha
  rw [this]
  rfl

/-- Three nodes, two of them in the same pixel. -/
def densityCalls : List Cb :=
  Cb.before .node :: ([⟨0, 0⟩, ⟨1, -1⟩, ⟨-1800000000, 900000000⟩].map fun p =>
    .obj (.node ⟨Obj.new, p⟩)) ++ [.after .node]

example : (∀ p ∈ nodesBeforeEnd densityCalls, p.WF) ∧ (nodesBeforeEnd densityCalls).length = 3 ∧
    Cb.after .node ∈ densityCalls := by
  refine ⟨?_, rfl, by decide⟩
  intro p hp
  have : p = ⟨0, 0⟩ ∨ p = ⟨1, -1⟩ ∨ p = ⟨-1800000000, 900000000⟩ := by
    simpa [densityCalls, nodesBeforeEnd] using hp
  rcases this with rfl | rfl | rfl <;> exact ⟨by decide, by decide⟩

/-- The middle of the world in a picture of 1024 lines, which has 5 pixels for a degree. -/
example : DrawnAt 1024 ⟨0, 0⟩ (900, 450) := by
  constructor
  · exact ⟨900, .inl (by norm_num [pixelsPerDegree]), by decide⟩
  · exact ⟨450, .inl (by norm_num [pixelsPerDegree]), by decide⟩

example : shade 0 100 0 = 0 ∧ shade 0 100 50 = 127 ∧ shade 0 100 1000 = 255 := by decide

end Osmium
