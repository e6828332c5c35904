import Verif.Field.Props
/-!
# Field files and statistics: concrete cases
-/
namespace Vvflow.Field
open Vvflow

/-- A 3x2 field from `(-1, 0.5)` with spacing `0.25`, values `1, 2, NaN, 4, 5, 0`. -/
def sample : XField :=
  ⟨0xbf800000, 0x3f000000, 0x3e800000, 3, 2,
    [0x3f800000, 0x40000000, 0x7fc00000, 0x40800000, 0x40a00000, 0], true⟩

example : val 0xbf800000 = .fin (-1) := by decide +kernel
example : val 0x7fc00000 = .nan := by decide +kernel
example : val 0xff800000 = .ninf := by decide +kernel
example : val 1 = .fin (1 / 2 ^ 149) := by decide +kernel

/-- The hypotheses of C58 hold for the sample, with a real IEEE arithmetic: it survives the round trip. -/
example : ∃ s g, write ieee sample = .ok s ∧ read ieee s = .ok g ∧ Same sample g :=
  C58_round_trip_partial (x := -1) (y := 1 / 2) (d := 1 / 4) ieee_ieee
    ⟨by decide, by decide, rfl, rfl⟩ (by decide) (by decide +kernel) (by decide +kernel)
    (by decide +kernel) (by norm_num) (by norm_num) (by norm_num) (by norm_num)
    ⟨0xbf400000, by decide +kernel⟩ ⟨0x3f400000, by decide +kernel⟩

/-- **C59 fails for uneven grids.**  Only the first two coordinates are looked at: a 3x2 matrix with columns
at `0, 1, 100` is accepted, and is drawn with columns at `0, 1, 2`. -/
theorem C59_uneven_counterexample {A : Arith} (hA : Ieee A) :
    ∃ g, read A ([0x40400000, 0, 0x3f800000, 0x42c80000,
        0, 0, 0, 0,
        0x3f800000, 0, 0, 0].flatMap toBytes) = .ok g ∧ g.xres = 3 ∧ val g.dxdy = .fin 1 := by
  set ws : List Word := [0x40400000, 0, 0x3f800000, 0x42c80000, 0, 0, 0, 0, 0x3f800000, 0, 0, 0]
  have v1 : val 0x3f800000 = .fin 1 := by decide +kernel
  have v0 : val 0 = .fin 0 := by decide +kernel
  have hd := hA.sub 0x3f800000 0 1 0 v1 v0 (by norm_num)
  have r1 : rnd32 (1 - 0) = 1 := by decide +kernel
  rw [r1] at hd
  have hdd := hA.sub _ _ _ _ hd hd (by norm_num)
  have r0 : rnd32 (1 - 1) = 0 := by decide +kernel
  rw [r0] at hdd
  have hb : badSpacing (.fin 1) (.fin 1) (.fin 0) = false := by decide +kernel
  have hh : header 0x40400000 = .ok 3 := by decide +kernel
  have hlen : (ws.flatMap toBytes).length = 48 := by decide +kernel
  have e0 : rd (ws.flatMap toBytes) 0 = .ok 0x40400000 := by decide +kernel
  have e1 : rd (ws.flatMap toBytes) 1 = .ok 0 := by decide +kernel
  have e2 : rd (ws.flatMap toBytes) 2 = .ok 0x3f800000 := by decide +kernel
  have e4 : rd (ws.flatMap toBytes) 4 = .ok 0 := by decide +kernel
  have e8 : rd (ws.flatMap toBytes) 8 = .ok 0x3f800000 := by decide +kernel
  have eall : rdAll (ws.flatMap toBytes) (positions 3 2) = .ok [0, 0, 0, 0, 0, 0] := by decide +kernel
  refine ⟨⟨0, 0, A.sub 0x3f800000 0, 3, 2, [0, 0, 0, 0, 0, 0], true⟩, ?_, rfl, hd⟩
  unfold read
  rw [hlen, if_neg (by decide), if_neg (by decide), e0]
  simp only [Outcome.bind, hh]
  rw [if_neg (by decide)]
  unfold readBody
  simp only [e2, e1, Outcome.bind]
  have a8 : 2 * (3 + 1) = 8 := rfl
  have a4 : 1 * (3 + 1) = 4 := rfl
  have a2 : 48 / 4 / (3 + 1) - 1 = 2 := rfl
  simp only [a8, a4, a2, e8, e4, hd, hdd, hb, eall]
  rfl

/-- A stated number of columns of `2^31`: the conversion to `int` is undefined. -/
example (A : Arith) : read A ((0x4f000000 :: List.replicate 8 (0 : Word)).flatMap toBytes) = .ub :=
  (C59_overread_partial _).mpr ⟨by decide +kernel, by decide +kernel,
    .inl ⟨2 ^ 31, ⟨0x4f000000, by decide +kernel, by decide +kernel⟩, by decide +kernel, le_refl _⟩⟩

/-- Nine floats, the first saying 8: a header without rows is read beyond its end. -/
example (A : Arith) : read A (headerOnly 8 0x41000000) = .ub :=
  (C59_overread_partial _).mpr ⟨by decide +kernel, by decide +kernel,
    .inr ⟨8, by decide, by decide, ⟨0x41000000, by decide +kernel, by decide +kernel⟩,
      .inl (by unfold Complete; decide +kernel)⟩⟩

/-- A matrix of four columns and one row. -/
example (A : Arith) : read A ((0x40800000 :: List.replicate 9 (0 : Word)).flatMap toBytes) = .ub :=
  C59_one_row_counterexample (n := 4) (le_refl _) (by decide) (by decide +kernel) _ rfl

/-- Ten floats, the first saying 3: not a matrix of three columns. -/
example (A : Arith) : read A ((0x40400000 :: List.replicate 9 (0 : Word)).flatMap toBytes) = .error := by
  have hv : val 0x40400000 = .fin 3 := by decide +kernel
  have h0 : wordAt ((0x40400000 :: List.replicate 9 (0 : Word)).flatMap toBytes) 0 = some 0x40400000 := by
    decide +kernel
  have hsays : ∀ q, Says ((0x40400000 :: List.replicate 9 (0 : Word)).flatMap toBytes) q → q = 3 := by
    rintro q ⟨w, h1, h2⟩
    rw [h0] at h1
    injection h1 with h1
    rw [← h1, hv] at h2
    injection h2 with h2
    exact h2.symm
  refine C59_rejected ?_ ?_
  · rintro n m - ⟨h1, h2⟩
    have : (n : ℚ) = 3 := hsays _ h1
    have hn : n = 3 := by exact_mod_cast this
    subst hn
    have hl : ((0x40400000 :: List.replicate 9 (0 : Word)).flatMap toBytes).length = 40 := by decide +kernel
    unfold Complete at h2
    rw [hl] at h2
    omega
  · intro q hq
    rw [hsays q hq]
    norm_num

/-- The 0.3-quantile of ten values (one of them zero): rank `floor(9·0.3) = 2`. -/
example : RankLow (nonzero [5, 1, 4, 0, 2, 3, 9, 8, 7, (6 : ℚ)]) 2 2 := by
  unfold RankLow nonzero
  refine ⟨by decide +kernel, by decide +kernel, by decide +kernel⟩

example : percentile id [5, 1, 4, 0, 2, 3, 9, 8, 7, (6 : ℚ)] (3 / 10) ≠ .ub := by
  intro h
  obtain ⟨r, hr⟩ := (C60_percentile_defined_partial [5, 1, 4, 0, 2, 3, 9, 8, 7, (6 : ℚ)] (p := 3 / 10)
    (by norm_num) (by norm_num)).1 (by decide +kernel)
  rw [hr] at h
  cases h

/-- The median of one value, or the 1 % quantile of 50 values: outside the array. -/
example : percentile id [(7 : ℚ)] (1 / 4) = .ub :=
  C60_percentile_counterexample _ (by norm_num) (by norm_num) (by norm_num [nonzero])

example : minElement (3 : ℚ) [1, 2, 1, 5] = 1 := by decide +kernel
example : maxElement (3 : ℚ) [1, 2, 1, 5] = 5 := by decide +kernel

end Vvflow.Field
