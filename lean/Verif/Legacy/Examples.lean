import Verif.Legacy.Props
set_option linter.unusedSectionVars false
/-! Cases meeting the hypotheses of the theorems. -/
namespace Vvflow.Legacy

theorem at_of_slice {f b : Bytes} {pos : ℕ} (h : (f.drop pos).take b.length = b) (hp : pos ≤ f.length) : At f pos b := by
  refine ⟨f.take pos, (f.drop pos).drop b.length, ?_, by simp [hp]⟩
  have h1 := List.take_append_drop pos f
  have h2 := List.take_append_drop b.length (f.drop pos)
  rw [h] at h2
  rw [List.append_assoc, h2, h1]

def exHeader : Header :=
  { caption := bytesOf "cylinder", time := ⟨5, 10⟩, dt := ⟨1, 20⟩, dtSave := ⟨1, 2⟩, dtStreak := ⟨0, 1⟩, dtProfile := ⟨0, 1⟩,
    re := 0x4059000000000000, pr := oneBits, marker := ⟨0, 0⟩, vx := bytesOf "1", vy := bytesOf "0.1*t", infG := 0,
    gravity := ⟨0, oneBits⟩, finish := infBits }

def exData : Data :=
  { holder := zero3, dpos := zero3, speedX := bytesOf "0", speedY := [], speedO := [], slae := zero3, slaePrev := zero3,
    kspring := ⟨infBits, infBits, oneBits⟩, density := oneBits, forceHydro := zero3, fdtDead := zero3, frictionPrev := zero3 }

/-- A triangle of which the second segment slips and the third has the Kutta condition. -/
def exContour : List FileSeg :=
  [⟨⟨0, 0⟩, 7, code 'n', code 't', oneBits, 0⟩, ⟨⟨oneBits, 0⟩, 8, code 'l', code 't', oneBits, 0⟩,
   ⟨⟨0, oneBits⟩, 9, code 'z', code 't', 0, 0⟩]

def exP0 : Part := .header exHeader (List.replicate 55 1)
def exP1 : Part := .vort [⟨oneBits, 0, oneBits⟩, ⟨0, oneBits, infBits⟩]
def exP2 : Part := .bdata exData
def exP3 : Part := .contour exContour

/-- The vortices stand last in the file and second in the directory. -/
def exDir (i : Fin 64) : Option (ℕ × Part) :=
  if i = 0 then some (1024, exP0) else if i = 1 then some (2024, exP1) else if i = 2 then some (1300, exP2)
  else if i = 3 then some (1600, exP3) else none

def pad (n : ℕ) (b : Bytes) : Bytes := b ++ List.replicate (n - b.length) 0

def exFile : Bytes :=
  pad 1024 (bytes 8 1024 ++ bytesOf exP0.name ++ bytes 8 2024 ++ bytesOf exP1.name ++ bytes 8 1300 ++ bytesOf exP2.name ++
    bytes 8 1600 ++ bytesOf exP3.name) ++ pad 276 exP0.written ++ pad 300 exP2.written ++ pad 424 exP3.written ++ exP1.written

theorem ex_holds : Holds exFile exDir where
  unused := by
    intro i hi
    have h4 : 4 ≤ i.val := by
      by_contra h
      have : i = 0 ∨ i = 1 ∨ i = 2 ∨ i = 3 := by omega
      rcases this with rfl | rfl | rfl | rfl <;> simp [exDir] at hi
    have hs : ∀ i : Fin 64, 4 ≤ i.val → (exFile.drop (16 * i)).take 16 = bytes 8 0 ++ List.replicate 8 0 := by decide +kernel
    refine ⟨List.replicate 8 0, rfl, at_of_slice (hs i h4) ?_⟩
    have : 1024 ≤ exFile.length := by decide +kernel
    omega
  entry := by
    intro i pos p hp
    have hl : 2024 ≤ exFile.length := by decide +kernel
    have : i = 0 ∨ i = 1 ∨ i = 2 ∨ i = 3 ∨ 4 ≤ i.val := by omega
    rcases this with rfl | rfl | rfl | rfl | h4
    · simp only [exDir, ↓reduceIte, Option.some.injEq, Prod.mk.injEq] at hp
      obtain ⟨rfl, rfl⟩ := hp
      exact ⟨by norm_num, by norm_num, at_of_slice (by decide +kernel) (by simp), at_of_slice (by decide +kernel) (by omega)⟩
    · simp only [exDir, ↓reduceIte, Option.some.injEq, Prod.mk.injEq, Fin.reduceEq] at hp
      obtain ⟨rfl, rfl⟩ := hp
      exact ⟨by norm_num, by norm_num, at_of_slice (by decide +kernel) (by simp; omega), at_of_slice (by decide +kernel) (by omega)⟩
    · simp only [exDir, ↓reduceIte, Option.some.injEq, Prod.mk.injEq, Fin.reduceEq] at hp
      obtain ⟨rfl, rfl⟩ := hp
      exact ⟨by norm_num, by norm_num, at_of_slice (by decide +kernel) (by simp; omega), at_of_slice (by decide +kernel) (by omega)⟩
    · simp only [exDir, ↓reduceIte, Option.some.injEq, Prod.mk.injEq, Fin.reduceEq] at hp
      obtain ⟨rfl, rfl⟩ := hp
      exact ⟨by norm_num, by norm_num, at_of_slice (by decide +kernel) (by decide +kernel), at_of_slice (by decide +kernel) (by omega)⟩
    · unfold exDir at hp
      rw [if_neg (by omega), if_neg (by omega), if_neg (by omega), if_neg (by omega)] at hp
      cases hp

theorem ex_parts : parts exDir = [exP0, exP1, exP2, exP3] := rfl

theorem ex_fits : ∀ p ∈ parts exDir, p.Fits := by
  rw [ex_parts]
  intro p hp
  simp only [List.mem_cons, List.not_mem_nil, or_false] at hp
  rcases hp with rfl | rfl | rfl | rfl
  · exact ⟨by decide, by decide⟩
  · change (2 : ℕ) < 2 ^ 63; norm_num
  · change ∀ t ∈ [_, _, _], _; decide
  · change (3 : ℕ) < 2 ^ 63; norm_num

/-- C117: the file is loaded to what it says. -/
example := C117_contents (fun _ => 0) exFile exDir ex_holds ex_fits exHeader (by rw [ex_parts]; rfl) [(exData, exContour)]
  (by rw [ex_parts]; rfl) blank

example : after (fun _ => 0) exFile blank (fun s => (s.caption, s.vort.length, s.bodies.map fun b => b.segs.map Seg.slip)) =
    some (bytesOf "cylinder", 2, [[false, true, true]]) := by decide +kernel

example := C117_layout (fun _ => 0) exFile exFile exDir exDir ex_holds ex_holds rfl ex_fits exHeader (by rw [ex_parts]; rfl)
  [(exData, exContour)] (by rw [ex_parts]; rfl) blank

/-- C117: a text is refused. -/
example : load (fun _ => 0) (bytesOf "#!/usr/bin/env vvflow") blank = .error :=
  C117_foreign _ _ _ (bytesOf "#!/usr/b") (bytesOf "in/env v") (by decide) (by decide) (at_of_slice (by decide) (by simp))
    (by decide) (by intro p; cases p <;> (simp only [Part.name]; decide))

example : load (fun _ => 0) (single "Header  " (bytesOf "v: 1.2  ")) blank = .error :=
  C117_version _ _ _ 1024 (bytesOf "v: 1.2  ") (by norm_num) (by norm_num) (at_of_slice (by decide +kernel) (by simp))
    (by decide) (at_of_slice (by decide +kernel) (by decide +kernel)) (by decide)

example := C117_kutta_counterexample (fun _ => 0) exData
  [⟨⟨0, 0⟩, 7, code 'n', code 't', oneBits, 0⟩, ⟨⟨oneBits, 0⟩, 8, code 'n', code 't', oneBits, 0⟩] (by simp)
  [] [⟨⟨oneBits, 0⟩, 8, code 'n', code 't', oneBits, 0⟩] ⟨⟨0, 0⟩, 7, code 'n', code 't', oneBits, 0⟩ rfl
  [⟨⟨0, 0⟩, 7, code 'n', code 't', oneBits, 0⟩] [] ⟨⟨oneBits, 0⟩, 8, code 'n', code 't', oneBits, 0⟩ rfl

end Vvflow.Legacy
