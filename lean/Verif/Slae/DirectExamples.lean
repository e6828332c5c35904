import Verif.Slae.Direct
import Verif.Slae.Examples
/-!
# Cases for the theorems of `Verif.Slae.Direct`
-/
namespace Vvflow.Slae
open Vvflow.Flow

/-- Two linked bodies that turn: a call, and the direct solver is used. -/
example : (∃ lp enc, AnyCall lp enc turning none none turningSol) ∧ Active turning none := by
  obtain ⟨lp, enc, h⟩ := turning_call
  exact ⟨⟨lp, enc, h.any⟩, (active_iff _ _).2 (by decide +kernel)⟩

/-- The same bodies later: they still move. -/
example : Active (flow [base, mounted] 5) none := (active_iff _ _).2 (by decide +kernel)

/-- A body that a spring may move. -/
example : Active (flow [sprung 3] 5) none := (active_iff _ _).2 (by decide +kernel)

/-- A body at rest after the first step. -/
def resting : Env ℚ := flow [tri 0 0] 1

example : ¬Active resting none := by rw [active_iff]; decide +kernel

/-- The inverse of its matrix, row by row. -/
def restInv : List ℚ :=
  [481/1106, -108/553, -1875/1106, -216/553, 3, -962/553, 0, 0, 0, 0, 0, 0,
    64/553, 192/553, 192/553, 384/553, 0, -256/553, 0, 0, 0, 0, 0, 0,
    71/158, -12/79, 213/158, -24/79, -3, -142/79, 0, 0, 0, 0, 0, 0,
    0, 0, 0, 1, 0, 0, 0, 0, 0, 0, 0, 0,
    0, 0, 0, 0, 1, 0, 0, 0, 0, 0, 0, 0,
    0, 0, 0, 0, 0, 1, 0, 0, 0, 0, 0, 0,
    -256/553, -768/553, -768/553, 676/553, 0, -3400/553, -1, 0, 0, 0, 0, 0,
    142/79, -48/79, 426/79, -96/79, -8, 64/79, 0, -1, 0, 0, 0, 0,
    1250/553, 432/553, 3750/553, -1832/1659, -28/3, 2696/1659, 0, 0, -1, 0, 0, 0,
    -256/553, -768/553, -768/553, -1536/553, 0, -5776/1659, -1, 0, 0, -1, 0, 0,
    142/79, -48/79, 426/79, -96/79, -12, -440/237, 0, -1, 0, 0, -1, 0,
    1250/553, 432/553, 3750/553, 864/553, -12, -6152/1659, 0, 0, -1, 0, 0, -1]

/-- The matrix of the scene, by coefficients. -/
theorem rest_matrix (a : Nat → ℚ) (h : MatrixOf (unknowns resting) resting none a) : ∀ i < 12, ∀ j < 12,
    ∑ k ∈ Finset.range 12, restInv.getD (i + k * 12) 0 * a (k + j * 12) = if i = j then 1 else 0 := by
  have key : ∀ x ∈ rowsAll resting, ∀ i ∈ List.range 12, (∑ k ∈ Finset.range 12,
      restInv.getD (i + k * 12) 0 * (((unknowns resting)[k]?).map (coefOf x.2)).getD 0) = if i = x.1 then 1 else 0 := by decide +kernel
  have hrow : ∀ j ∈ List.range 12, ∃ x ∈ rowsAll resting, x.1 = j := by decide +kernel
  have hlen : (unknowns resting).length = 12 := by decide +kernel
  intro i hi j hj
  obtain ⟨x, hx, rfl⟩ := hrow j (List.mem_range.2 hj)
  rw [← key x hx i (List.mem_range.2 hi)]
  refine Finset.sum_congr rfl fun k hk => ?_
  have hkl : k < (unknowns resting).length := by rw [hlen]; exact Finset.mem_range.1 hk
  have hg : (x.1, writes false x.1 x.2) ∈ groups resting false none 0 false resting.bodies := by
    rw [groups_none]; exact List.mem_map.2 ⟨x, hx, rfl⟩
  have := h x.1 _ x.2 hg (fills_writes _ _ _) k _ (List.getElem?_eq_getElem hkl)
  rw [hlen, Nat.add_comm] at this
  rw [this, List.getElem?_eq_getElem hkl]
  rfl

/-- A way of writing numbers as bytes with which its hash is not 0. -/
theorem rest_hashed : Hashed (fun _ _ => 1) resting := by
  intro a _
  have hlen : (unknowns resting).length = 12 := by decide +kernel
  rw [hlen]
  have : Mat.bytesOf (fun (_ : ℚ) _ => 1) a = fun _ => 1 := rfl
  unfold Mat.bodyHash
  rw [this]
  decide +kernel

/-- The hypotheses of `C16_resting_partial` are met by a call that uses the inverse. -/
theorem resting_call : useInverse resting none = true ∧ ∃ lp mem', RestCall lp (fun _ _ => 1) resting none none mem' := by
  have hu : useInverse resting none = true := by decide +kernel
  have hs : size resting = 12 := by decide +kernel
  refine ⟨hu, ?_⟩
  have hc : resting.bodies.foldl (collBody resting) none = none := by decide +kernel
  have := rest_exists resting (fun _ _ => 1) hu (fun k => restInv.getD k 0) (by rw [hs]; exact rest_matrix)
  rwa [hc] at this

end Vvflow.Slae
