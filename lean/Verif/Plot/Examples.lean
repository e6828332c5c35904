import Verif.Plot.Props
/-!
# Requests that meet the hypotheses of the theorems on the plotted window
-/
namespace Vvflow.Plot.Examples
open Vvflow Vvflow.Plot

/-- `-x 5,-3 -y 1,1 --size 800x600`: the horizontal range is given backwards, vertically only the centre. -/
def centre : Asked ℚ := ⟨some 5, some (-3), some 1, some 1, 800, 600, 256, 640, 4⟩

theorem centre_admissible : Admissible centre :=
  Or.inr ⟨by decide, by decide, Or.inl ⟨⟨5, -3, rfl, rfl, by norm_num⟩, Or.inl ⟨1, rfl, rfl⟩⟩⟩

theorem centre_slope : Slope centre (3 / 4 : ℚ) := by
  refine ⟨?_, fun _ => by norm_num [centre]⟩
  rintro l r b t _ _ _ ⟨⟩ ⟨⟩ h
  exact absurd rfl h

theorem centre_fits : Fits centre (3 / 4 : ℚ) :=
  ⟨by norm_num [centre], by norm_num [centre], fun _ => by norm_num [centre], fun h => absurd h (by decide)⟩

/-- The window is [-3, 5] by [-2, 4]. -/
example : ∃ w, window centre = .ok w ∧ w.xmin = -3 ∧ w.xmax = 5 ∧ w.ymin = -2 ∧ w.ymax = 4 ∧ w.W = 800 ∧ w.H = 600 := by
  obtain ⟨w, e, g⟩ := C67_window_partial centre_admissible centre_slope centre_fits (by decide) (by decide)
  have hx := g.x.edges 5 (-3) rfl rfl (by norm_num)
  have lt := g.x.lt
  have hc := g.y.centre 1 rfl rfl
  have hs := g.shape
  have hx' : w.xmin = -3 ∧ w.xmax = 5 := by
    rcases hx with ⟨h1, h2⟩ | ⟨h1, h2⟩
    · rw [h1, h2] at lt; norm_num at lt
    · exact ⟨h1, h2⟩
  rw [hx'.1, hx'.2] at hs
  refine ⟨w, e, hx'.1, hx'.2, by linarith, by linarith, g.width (by decide), g.height (by decide) ?_⟩
  exact Or.inr (Or.inr (Or.inl ⟨1, rfl, rfl⟩))

/-- `-x nan,10 -y 0,4 --size 1000x500`: only the right edge. -/
def edge : Asked ℚ := ⟨none, some 10, some 0, some 4, 1000, 500, 256, 640, 4⟩

example : ∃ w, window edge = .ok w ∧ w.xmin = 2 ∧ w.xmax = 10 ∧ w.ymin = 0 ∧ w.ymax = 4 := by
  have hA : Admissible edge :=
    Or.inr ⟨by decide, by decide, Or.inr ⟨Or.inr (Or.inr ⟨10, rfl, rfl⟩), ⟨0, 4, rfl, rfl, by norm_num⟩⟩⟩
  have hS : Slope edge (1 / 2 : ℚ) := ⟨fun _ _ _ _ h => (nomatch h), fun _ => by norm_num [edge]⟩
  have hF : Fits edge (1 / 2 : ℚ) :=
    ⟨by norm_num [edge], by norm_num [edge], fun _ => by norm_num [edge], fun h => absurd h (by decide)⟩
  obtain ⟨w, e, g⟩ := C67_window_partial hA hS hF (by decide) (by decide)
  have hr := g.x.right 10 rfl rfl
  have hy := g.y.edges 0 4 rfl rfl (by norm_num)
  have lt := g.y.lt
  have hs := g.shape
  have hy' : w.ymin = 0 ∧ w.ymax = 4 := by
    rcases hy with h | ⟨h1, h2⟩
    · exact h
    · rw [h1, h2] at lt; norm_num at lt
  rw [hy'.1, hy'.2, hr] at hs
  exact ⟨w, e, by linarith, hr, hy'.1, hy'.2⟩

/-- The defaults leave both axes open and are refused. -/
example : window (⟨some 0, some 0, some 0, some 0, 1280, 720, 256, 640, 4⟩ : Asked ℚ) = .error := by
  rw [C67_refused]
  rintro (⟨⟨l, r, ⟨⟩, ⟨⟩, h⟩, _⟩ | ⟨_, _, ⟨⟨l, r, ⟨⟩, ⟨⟩, h⟩, _⟩ | ⟨_, ⟨l, r, ⟨⟩, ⟨⟩, h⟩⟩⟩)
  all_goals exact absurd rfl h

/-- A frame bound to the body along one axis. -/
example (w : Window ℚ) : ∃ v, shift .bx ⟨7, 7⟩ [⟨3, 4⟩] w = .ok v ∧ v.xmin = w.xmin + 3 ∧ v.ymin = w.ymin :=
  ⟨_, rfl, rfl, rfl⟩

example : Moved (K := ℚ) .bx ⟨7, 7⟩ [⟨3, 4⟩] ⟨3, 0⟩ := ⟨⟨3, 4⟩, rfl, rfl⟩

end Vvflow.Plot.Examples
