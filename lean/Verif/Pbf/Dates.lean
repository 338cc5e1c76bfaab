import Verif.Pbf.WriterLemmas

/-
C15: what the PBF writer stores as the time of an object if the date granularity is not one second.
-/
namespace Osmium

theorem timestamp2int_dividing (g k t : ℤ) (hk : g * k = 1000) (ht : |t| ≤ 8796093022208) :
    timestamp2int g t = t * k := by
  have hg : (g : ℚ) ≠ 0 := by
    have : g ≠ 0 := by rintro rfl; simp at hk
    exact_mod_cast this
  have hkq : (g : ℚ) * k = 1000 := by exact_mod_cast hk
  have hk1 : |k| ≤ 1000 := by
    have hd : k ∣ 1000 := ⟨g, by rw [mul_comm]; exact hk.symm⟩
    exact Int.le_of_dvd (by norm_num) ((abs_dvd k 1000).mpr hd)
  have e : (1000 : ℚ) / (g : ℚ) = ((k : ℤ) : ℚ) := by rw [div_eq_iff hg, mul_comm]; exact hkq.symm
  have hb : |t * k| ≤ 9007199254740992 := by
    rw [abs_mul]
    calc |t| * |k| ≤ 8796093022208 * 1000 := mul_le_mul ht hk1 (abs_nonneg _) (by norm_num)
      _ ≤ 9007199254740992 := by norm_num
  unfold timestamp2int
  rw [e, fl_int t (by omega), fl_int k (by omega), ← Int.cast_mul, fl_int _ hb, cround_int]

/-- C15: with every date granularity that divides a second the writer stores the exact time of an object, in units of
the granularity, as long as it is below 2^43 seconds.  (The reader then gets it wrong, see
`pbf_fine_date_granularity_loses_timestamps`, but the file is right.) -/
theorem pbf_stored_time (cfg : PbfCfg) (t : StringTable) (o : Obj) (hm : cfg.metadata = true)
    (hg : cfg.dateGranularity ∣ 1000) (ht : |o.timestamp| ≤ 8796093022208) :
    ∃ t' i, recordInfo cfg t o = .ok (t', some i) ∧ i.timestamp * cfg.dateGranularity = o.timestamp * 1000 := by
  obtain ⟨k, hk⟩ := hg
  have h0 : cfg.dateGranularity ≠ 0 := by intro h; rw [h] at hk; simp at hk
  have hk1 : |k| ≤ 1000 := by
    have hd : k ∣ 1000 := ⟨cfg.dateGranularity, by rw [mul_comm]; exact hk⟩
    exact Int.le_of_dvd (by norm_num) ((abs_dvd k 1000).mpr hd)
  have hb : |o.timestamp * k| ≤ 8796093022208 * 1000 := by
    rw [abs_mul]
    exact mul_le_mul ht hk1 (abs_nonneg _) (by norm_num)
  have hc : chk64 (o.timestamp * k) = some (o.timestamp * k) := by
    rw [chk64_eq_some]
    rw [abs_le] at hb
    exact ⟨by unfold InS64; omega, rfl⟩
  have e : timestamp2intC cfg o.timestamp = .ok (o.timestamp * k) := by
    unfold timestamp2intC
    rw [if_neg h0, timestamp2int_dividing _ k _ hk.symm ht, hc]
    rfl
  simp only [recordInfo, hm, if_true, e, bind, Except.bind, pure, Except.pure, Except.ok.injEq, Prod.mk.injEq,
    Option.some.injEq]
  refine ⟨_, _, ⟨rfl, rfl⟩, ?_⟩
  show o.timestamp * k * cfg.dateGranularity = _
  rw [mul_assoc, mul_comm k, ← hk]

/-- C15: a date granularity of 0 is undefined behaviour as soon as an object with metadata is written. -/
theorem pbf_no_date_granularity (cfg : PbfCfg) (t : StringTable) (o : Obj) (hm : cfg.metadata = true)
    (hg : cfg.dateGranularity = 0) : recordInfo cfg t o = .error .ub := by
  simp only [recordInfo, hm, if_true, timestamp2intC, hg, bind, Except.bind]

/-- The hypotheses can be met: milliseconds. -/
example : let cfg := { PbfCfg.default true with dateGranularity := 1 }
    cfg.metadata = true ∧ cfg.dateGranularity ∣ 1000 ∧
    ((recordInfo cfg .empty { Obj.new with timestamp := 1353000000 }).toOption.bind
      fun r => r.2.map (·.timestamp)) = some 1353000000000 := by
  decide +kernel

end Osmium
