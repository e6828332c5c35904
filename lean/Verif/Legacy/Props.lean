import Verif.Legacy.Spec
import Mathlib.Data.List.Induction
import Mathlib.Tactic.Ring
import Mathlib.Tactic.Linarith
set_option linter.unusedSectionVars false
/-!
# Files of the old format are loaded to what they say
-/
namespace Vvflow.Legacy

/-! ## Numbers -/

theorem bytes_length (k n : ℕ) : (bytes k n).length = k := by simp [bytes]

theorem bytes_succ (k n : ℕ) : bytes (k + 1) n = UInt8.ofNat n :: bytes k (n / 256) := by
  unfold bytes
  rw [List.range_succ_eq_map, List.map_cons, List.map_map]
  simp only [pow_zero, Nat.div_one, List.cons.injEq, true_and]
  apply List.map_congr_left
  intro i _
  simp only [Function.comp, Nat.succ_eq_add_one, pow_succ']
  rw [Nat.div_div_eq_div_mul]

theorem le_bytes (k n : ℕ) : le (bytes k n) = n % 256 ^ k := by
  induction k generalizing n with
  | zero => simp [bytes, le, Nat.mod_one]
  | succ k ih =>
    rw [bytes_succ, le, ih, pow_succ', Nat.mod_mul]
    simp

theorem u64_w64 (x : UInt64) : u64 (w64 x) = x := by
  unfold u64 w64
  rw [le_bytes]
  simp

theorem u32_w32 (x : UInt32) : u32 (w32 x) = x := by
  unfold u32 w32
  rw [le_bytes]
  simp

theorem w64_length (x : UInt64) : (w64 x).length = 8 := bytes_length _ _
theorem w32_length (x : UInt32) : (w32 x).length = 4 := bytes_length _ _

theorem u64_bytes (n : ℕ) (h : n < 2 ^ 64) : (u64 (bytes 8 n)).toNat = n := by
  unfold u64
  rw [le_bytes]
  have : n % 256 ^ 8 = n := Nat.mod_eq_of_lt (by norm_num at h ⊢; exact h)
  rw [this, UInt64.toNat_ofNat', Nat.mod_eq_of_lt h]

theorem u32_bytes (n : ℕ) (h : n < 2 ^ 32) : (u32 (bytes 4 n)).toNat = n := by
  unfold u32
  rw [le_bytes]
  have : n % 256 ^ 4 = n := Nat.mod_eq_of_lt (by norm_num at h ⊢; exact h)
  rw [this, UInt32.toNat_ofNat', Nat.mod_eq_of_lt h]

theorem take_left' {a b : Bytes} {n : ℕ} (h : a.length = n) : (a ++ b).take n = a := by subst h; simp
theorem drop_left' {a b : Bytes} {n : ℕ} (h : a.length = n) : (a ++ b).drop n = b := by subst h; simp

theorem toTime_w (t : Time) : toTime (wTime t) = t := by
  unfold toTime wTime
  rw [take_left' (w32_length _), drop_left' (w32_length _), u32_w32, u32_w32]

theorem toV2_w (v : V2) : toV2 (wV2 v) = v := by
  unfold toV2 wV2
  rw [take_left' (w64_length _), drop_left' (w64_length _), u64_w64, u64_w64]

theorem toV3_w (v : V3) : toV3 (wV3 v) = v := by
  unfold toV3 wV3
  rw [take_left' (w64_length _), drop_left' (w64_length _), take_left' (w64_length _), ← List.append_assoc,
    drop_left' (by simp [w64_length]), u64_w64, u64_w64, u64_w64]

theorem toObj_w (v : Obj) : toObj (wObj v) = v := by
  unfold toObj wObj
  rw [take_left' (w64_length _), drop_left' (w64_length _), take_left' (w64_length _), ← List.append_assoc,
    drop_left' (by simp [w64_length]), u64_w64, u64_w64, u64_w64]

/-! ## Readers -/

theorem At.left {f a b : Bytes} {pos : ℕ} (h : At f pos (a ++ b)) : At f pos a := by
  obtain ⟨x, y, e, l⟩ := h
  exact ⟨x, b ++ y, by rw [e]; simp, l⟩

theorem At.right {f a b : Bytes} {pos : ℕ} (h : At f pos (a ++ b)) : At f (pos + a.length) b := by
  obtain ⟨x, y, e, l⟩ := h
  exact ⟨x ++ a, y, by rw [e]; simp, by simp [l]⟩

theorem At.slice {f b : Bytes} {pos : ℕ} (h : At f pos b) : (f.drop pos).take b.length = b := by
  obtain ⟨x, y, e, l⟩ := h
  subst l
  rw [e, List.append_assoc, List.drop_left, List.take_left]

/-- Where the file has `e`, the reader gives `a` and goes behind it. -/
def Reads {α : Type} (f : Bytes) (x : Rd α) (e : Bytes) (a : α) : Prop :=
  ∀ pos, At f pos e → x pos = .ok (a, pos + e.length)

theorem Reads.bind {α β : Type} {f : Bytes} {x : Rd α} {k : α → Rd β} {e e' : Bytes} {a : α} {b : β} (h : Reads f x e a)
    (h' : Reads f (k a) e' b) : Reads f (x >>= k) (e ++ e') b := by
  intro pos hp
  change Rd.bind x k pos = _
  unfold Rd.bind
  rw [h pos hp.left]
  simp only
  rw [h' _ hp.right, List.length_append, Nat.add_assoc]

theorem Reads.last {α β : Type} {f : Bytes} {x : Rd α} {k : α → Rd β} {e : Bytes} {a : α} {b : β} (h : Reads f x e a)
    (h' : k a = pure b) : Reads f (x >>= k) e b := by
  intro pos hp
  change Rd.bind x k pos = _
  unfold Rd.bind
  rw [h pos hp]
  simp only
  rw [h']
  rfl

theorem reads_pure {α : Type} {f : Bytes} (a : α) : Reads f (pure a) [] a := fun _ _ => rfl

theorem reads_fread {α : Type} {f : Bytes} {n : ℕ} {dec : Bytes → α} {old : Option α} {e : Bytes} {a : α} (hn : e.length = n)
    (h : dec e = a) : Reads f (fread f n dec old) e a := by
  intro pos hp
  unfold fread
  subst hn h
  simp only [hp.slice, ↓reduceIte]

theorem r64 {f : Bytes} {old : Option UInt64} (x : UInt64) : Reads f (fread f 8 u64 old) (w64 x) x :=
  reads_fread (w64_length x) (u64_w64 x)
theorem rTime {f : Bytes} {old : Option Time} (x : Time) : Reads f (fread f 8 toTime old) (wTime x) x :=
  reads_fread (by simp [wTime, w32_length]) (toTime_w x)
theorem rV2 {f : Bytes} {old : Option V2} (x : V2) : Reads f (fread f 16 toV2 old) (wV2 x) x :=
  reads_fread (by simp [wV2, w64_length]) (toV2_w x)
theorem rV3 {f : Bytes} {old : Option V3} (x : V3) : Reads f (fread f 24 toV3 old) (wV3 x) x :=
  reads_fread (by simp [wV3, w64_length]) (toV3_w x)
theorem rObj {f : Bytes} {old : Option Obj} (x : Obj) : Reads f (fread f 24 toObj old) (wObj x) x :=
  reads_fread (by simp [wObj, w64_length]) (toObj_w x)

theorem takeWhile_nonzero {t : Bytes} (h : 0 ∉ t) : t.takeWhile (· ≠ 0) = t := by
  rw [List.takeWhile_eq_self_iff]
  intro x hx
  simp only [ne_eq, decide_not, Bool.not_eq_eq_eq_not, Bool.not_true, decide_eq_false_iff_not]
  rintro rfl
  exact h hx

theorem rText {f : Bytes} {t : Bytes} (h : 0 ∉ t ∧ t.length < 2 ^ 31) : Reads f (readScript f) (wText t) t := by
  unfold readScript wText
  have e : (u32 (bytes 4 t.length)).toNat = t.length := u32_bytes _ (by have := h.2; omega)
  refine Reads.bind (reads_fread (bytes_length _ _) rfl) ?_
  rw [e, if_neg (by have := h.2; omega)]
  refine Reads.last (reads_fread rfl rfl) ?_
  rw [id, takeWhile_nonzero h.1]

theorem cstr_caption {t fill : Bytes} (h : 0 ∉ t) : cstr (t ++ 0 :: fill) = .ok t := by
  unfold cstr
  rw [if_pos (by simp)]
  congr 1
  rw [List.takeWhile_append_of_pos]
  · simp
  · intro x hx
    simp only [ne_eq, decide_not, Bool.not_eq_eq_eq_not, Bool.not_true, decide_eq_false_iff_not]
    rintro rfl
    exact h hx

/-! ## Parts -/

theorem rObjs {f : Bytes} (l : List Obj) (obj : Obj) (acc : List Obj) :
    Reads f (loadObjs f l.length obj acc) (l.flatMap wObj) (acc ++ l) := by
  induction l generalizing obj acc with
  | nil => simpa [loadObjs] using reads_pure (f := f) acc
  | cons o l ih =>
    rw [List.flatMap_cons]
    refine Reads.bind (rObj o) ?_
    simpa using ih o (acc ++ [o])

theorem times_bytes {n : ℕ} (h : n < 2 ^ 63) : times (u64 (bytes 8 n)) = n := by
  unfold times
  rw [u64_bytes n (by omega), if_neg (by omega)]

theorem rList {f : Bytes} (l list : List Obj) (h : l.length < 2 ^ 63) : Reads f (loadList f list) (wObjs l) (list ++ l) := by
  unfold loadList wObjs
  refine Reads.bind (reads_fread (bytes_length _ _) rfl) ?_
  rw [times_bytes h]
  exact rObjs l _ list

/-- The parameters of a simulation among its state. -/
def head (s : State) : Header :=
  ⟨s.caption, s.time, s.dt, s.dtSave, s.dtStreak, s.dtProfile, s.re, s.pr, s.marker, s.vx, s.vy, s.infG, s.gravity, s.finish⟩

def withHead (s : State) (h : Header) : State :=
  { s with caption := h.caption, time := h.time, dt := h.dt, dtSave := h.dtSave, dtStreak := h.dtStreak,
           dtProfile := h.dtProfile, re := h.re, pr := h.pr, marker := h.marker, vx := h.vx, vy := h.vy, infG := h.infG,
           gravity := h.gravity, finish := h.finish }

theorem rHeader {f : Bytes} (s : State) (h : Header) (fill : Bytes) (hf : (Part.header h fill).Fits) :
    Reads f (loadHeader f s) (Part.header h fill).written (withHead s h) := by
  obtain ⟨h64, ht⟩ := hf
  have hc := ht h.caption (by simp)
  unfold loadHeader Part.written
  refine Reads.bind (reads_fread (by decide) rfl) ?_
  rw [id, if_neg (by simp)]
  refine Reads.bind (reads_fread (by simp; omega) rfl) ?_
  rw [← List.nil_append (wTime h.time ++ _)]
  refine Reads.bind (a := h.caption) ?_ ?_
  · intro pos _
    simp only [id, cstr_caption hc.1]
    rfl
  refine Reads.bind (rTime _) ?_
  refine Reads.bind (rTime _) ?_
  refine Reads.bind (rTime _) ?_
  refine Reads.bind (rTime _) ?_
  refine Reads.bind (rTime _) ?_
  refine Reads.bind (r64 _) ?_
  refine Reads.bind (r64 _) ?_
  refine Reads.bind (rV2 _) ?_
  refine Reads.bind (rText (ht _ (by simp))) ?_
  refine Reads.bind (rText (ht _ (by simp))) ?_
  refine Reads.bind (r64 _) ?_
  refine Reads.bind (rV2 _) ?_
  exact Reads.last (r64 _) rfl

/-- The body of these parameters, without a contour. -/
def bare (d : Data) : Body :=
  { newBody with holder := d.holder, dpos := d.dpos, speedX := d.speedX, speedY := d.speedY, speedO := d.speedO, slae := d.slae,
                 slaePrev := d.slaePrev, kspring := d.kspring, density := d.density, forceHydro := d.forceHydro,
                 fdtDead := d.fdtDead, frictionPrev := d.frictionPrev }

theorem rBData {f : Bytes} (s : State) (d : Data) (hf : (Part.bdata d).Fits) :
    Reads f (loadBData f s) (Part.bdata d).written { s with bodies := s.bodies ++ [bare d] } := by
  unfold loadBData Part.written
  refine Reads.bind (rV3 _) ?_
  refine Reads.bind (rV3 _) ?_
  refine Reads.bind (rText (hf _ (by simp))) ?_
  refine Reads.bind (rText (hf _ (by simp))) ?_
  refine Reads.bind (rText (hf _ (by simp))) ?_
  refine Reads.bind (rV3 _) ?_
  refine Reads.bind (rV3 _) ?_
  refine Reads.bind (rV3 _) ?_
  refine Reads.bind (r64 _) ?_
  refine Reads.bind (rV3 _) ?_
  refine Reads.bind (rV3 _) ?_
  exact Reads.last (rV3 _) rfl

/-- The segments of a contour, when the one before slips or not. -/
def segsFrom (narrow : UInt64 → UInt32) : Bool → List FileSeg → List Seg
  | _, [] => []
  | b, x :: l => ⟨x.corner, x.g, slipOf x.bc b, narrow x.heat, x.gsum⟩ :: segsFrom narrow (slipOf x.bc b) l

def addSegs (narrow : UInt64 → UInt32) (b : Bool) (body : Body) (l : List FileSeg) : Body :=
  { body with bc := l.foldl (fun o x => bcOf x.bc o) body.bc, hc := l.foldl (fun o x => hcOf x.hc o) body.hc,
              segs := body.segs ++ segsFrom narrow b l }

theorem rSegs {f : Bytes} (narrow : UInt64 → UInt32) (l : List FileSeg) (att : Seg) (body : Body) :
    Reads f (loadSegs narrow f l.length att body) (l.flatMap wSeg) (addSegs narrow att.slip body l) := by
  induction l generalizing att body with
  | nil =>
    have : addSegs narrow att.slip body [] = body := by simp [addSegs, segsFrom]
    rw [this]
    exact reads_pure body
  | cons x l ih =>
    rw [List.flatMap_cons]
    have : wSeg x ++ l.flatMap wSeg = wV2 x.corner ++ (w64 x.g ++ (w64 x.bc ++ (w64 x.hc ++ (w64 x.heat ++ (w64 x.gsum ++
      l.flatMap wSeg))))) := by simp [wSeg]
    rw [this]
    refine Reads.bind (rV2 _) ?_
    refine Reads.bind (r64 _) ?_
    refine Reads.bind (r64 _) ?_
    refine Reads.bind (r64 _) ?_
    refine Reads.bind (r64 _) ?_
    refine Reads.bind (r64 _) ?_
    have h := ih ⟨x.corner, x.g, slipOf x.bc att.slip, narrow x.heat, x.gsum⟩
      { body with bc := bcOf x.bc body.bc, hc := hcOf x.hc body.hc,
                  segs := body.segs ++ [⟨x.corner, x.g, slipOf x.bc att.slip, narrow x.heat, x.gsum⟩] }
    have e : addSegs narrow att.slip body (x :: l) = addSegs narrow (slipOf x.bc att.slip)
      { body with bc := bcOf x.bc body.bc, hc := hcOf x.hc body.hc,
                  segs := body.segs ++ [⟨x.corner, x.g, slipOf x.bc att.slip, narrow x.heat, x.gsum⟩] } l := by
      simp [addSegs, segsFrom]
    rw [e]
    exact h

theorem rBody {f : Bytes} (narrow : UInt64 → UInt32) (s : State) (bs : List Body) (b : Body) (hs : s.bodies = bs ++ [b])
    (l : List FileSeg) (hf : (Part.contour l).Fits) :
    Reads f (loadBody narrow f s) (Part.contour l).written { s with bodies := bs ++ [addSegs narrow false b l] } := by
  unfold loadBody Part.written
  have e : s.bodies.getLast? = some b := by rw [hs]; simp
  rw [e]
  simp only
  refine Reads.bind (reads_fread (bytes_length _ _) rfl) ?_
  rw [times_bytes hf]
  refine Reads.last (rSegs narrow l _ b) ?_
  rw [hs]
  simp

/-! ## What the parts do to the state -/

/-- What a part does to the bodies. -/
def upd (narrow : UInt64 → UInt32) (bs : List Body) : Part → List Body
  | .bdata d => bs ++ [bare d]
  | .contour l => bs.dropLast ++ bs.getLast?.toList.map fun b => addSegs narrow false b l
  | _ => bs

/-- What a part does to the state. -/
def apply (narrow : UInt64 → UInt32) (s : State) (p : Part) : State :=
  { withHead s (p.header?.getD (head s)) with
    vort := s.vort ++ p.vortOf, heat := s.heat ++ p.heatOf, streakSrc := s.streakSrc ++ p.streakSrcOf,
    streak := s.streak ++ p.streakOf, bodies := upd narrow s.bodies p }

theorem withHead_head (s : State) : withHead s (head s) = s := rfl

/-- A contour can be loaded if there is a body. -/
def Ready (s : State) : Part → Prop
  | .contour _ => s.bodies ≠ []
  | _ => True

theorem rField {f : Bytes} (narrow : UInt64 → UInt32) (s : State) (p : Part) (hf : p.Fits) (hr : Ready s p) :
    Reads f (loadField narrow f (bytesOf p.name) s) p.written (apply narrow s p) := by
  cases p with
  | header h fill =>
    have := rHeader (f := f) s h fill hf
    unfold loadField
    simp only [Part.name]
    rw [if_pos trivial]
    simpa [apply, Part.header?, Part.vortOf, Part.heatOf, Part.streakSrcOf, Part.streakOf, upd, withHead] using this
  | vort l =>
    unfold loadField
    simp only [Part.name]
    rw [if_neg (by decide), if_pos trivial]
    refine Reads.last (rList l _ hf) ?_
    simp [apply, Part.header?, Part.vortOf, Part.heatOf, Part.streakSrcOf, Part.streakOf, upd, withHead_head]
  | heat l =>
    unfold loadField
    simp only [Part.name]
    rw [if_neg (by decide), if_neg (by decide), if_pos trivial]
    refine Reads.last (rList l _ hf) ?_
    simp [apply, Part.header?, Part.vortOf, Part.heatOf, Part.streakSrcOf, Part.streakOf, upd, withHead_head]
  | streakSrc l =>
    unfold loadField
    simp only [Part.name]
    rw [if_neg (by decide), if_neg (by decide), if_neg (by decide), if_pos trivial]
    refine Reads.last (rList l _ hf) ?_
    simp [apply, Part.header?, Part.vortOf, Part.heatOf, Part.streakSrcOf, Part.streakOf, upd, withHead_head]
  | streak l =>
    unfold loadField
    simp only [Part.name]
    rw [if_neg (by decide), if_neg (by decide), if_neg (by decide), if_neg (by decide), if_pos trivial]
    refine Reads.last (rList l _ hf) ?_
    simp [apply, Part.header?, Part.vortOf, Part.heatOf, Part.streakSrcOf, Part.streakOf, upd, withHead_head]
  | bdata d =>
    unfold loadField
    simp only [Part.name]
    rw [if_neg (by decide), if_neg (by decide), if_neg (by decide), if_neg (by decide), if_neg (by decide), if_pos trivial]
    have := rBData (f := f) s d hf
    simpa [apply, Part.header?, Part.vortOf, Part.heatOf, Part.streakSrcOf, Part.streakOf, upd, withHead_head] using this
  | contour l =>
    unfold loadField
    simp only [Part.name]
    rw [if_neg (by decide), if_neg (by decide), if_neg (by decide), if_neg (by decide), if_neg (by decide),
      if_neg (by decide), if_pos trivial]
    obtain ⟨bs, b, hs⟩ : ∃ bs b, s.bodies = bs ++ [b] := ⟨_, _, (List.dropLast_append_getLast hr).symm⟩
    have := rBody (f := f) narrow s bs b hs l hf
    simpa [apply, Part.header?, Part.vortOf, Part.heatOf, Part.streakSrcOf, Part.streakOf, upd, withHead_head, hs] using this

/-- Every contour comes after a body. -/
def Chain (narrow : UInt64 → UInt32) : List Part → State → Prop
  | [], _ => True
  | p :: ps, s => Ready s p ∧ Chain narrow ps (apply narrow s p)

/-! ## The directory -/

theorem pass_unused (narrow : UInt64 → UInt32) {f : Bytes} (i : ℕ) (name : Bytes) (hn : name.length = 8)
    (h : At f (16 * i) (bytes 8 0 ++ name)) (x : UInt64 × Bytes × State) :
    pass narrow f i x = .ok (0, name, x.2.2) := by
  unfold pass
  rw [Nat.mul_comm i 16]
  have : Reads f (do
      let tmp ← fread f 8 u64 (some x.1)
      let comment ← fread f 8 id (some x.2.1)
      if tmp = 0 then pure (tmp, comment, x.2.2)
      else
        let pos ← fun pos => .ok (if 2 ^ 63 ≤ tmp.toNat then pos else tmp.toNat, pos)
        let s ← fun _ => loadField narrow f comment x.2.2 pos
        pure (tmp, comment, s) : Rd (UInt64 × Bytes × State)) (bytes 8 0 ++ name) (0, name, x.2.2) := by
    refine Reads.bind (reads_fread (bytes_length _ _) rfl) ?_
    refine Reads.last (reads_fread hn rfl) ?_
    rw [if_pos (by decide)]
    rfl
  rw [this _ h]

theorem pass_entry (narrow : UInt64 → UInt32) {f : Bytes} (i pos : ℕ) (p : Part) (h0 : 0 < pos) (h63 : pos < 2 ^ 63)
    (h : At f (16 * i) (bytes 8 pos ++ bytesOf p.name)) (hp : At f pos p.written) (hf : p.Fits)
    (x : UInt64 × Bytes × State) (hr : Ready x.2.2 p) :
    ∃ t c, pass narrow f i x = .ok (t, c, apply narrow x.2.2 p) := by
  refine ⟨u64 (bytes 8 pos), bytesOf p.name, ?_⟩
  have e : (u64 (bytes 8 pos)).toNat = pos := u64_bytes pos (by omega)
  have hname : (bytesOf p.name).length = 8 := by cases p <;> (simp only [Part.name]; decide)
  have h1 : Reads f (fread f 8 u64 (some x.1)) (bytes 8 pos) (u64 (bytes 8 pos)) := reads_fread (bytes_length _ _) rfl
  have h2 : Reads f (fread f 8 id (some x.2.1)) (bytesOf p.name) (bytesOf p.name) := reads_fread hname rfl
  unfold pass
  rw [Nat.mul_comm i 16]
  simp only [Bind.bind, Rd.bind, Pure.pure]
  rw [h1 _ h.left]
  simp only
  rw [h2 _ h.right]
  simp only
  rw [if_neg (by intro h; rw [h] at e; simp at e; omega)]
  simp only [e, Rd.bind]
  rw [if_neg (by omega), rField narrow x.2.2 p hf hr pos hp]

theorem passes_spec (narrow : UInt64 → UInt32) {f : Bytes} (dir : Fin 64 → Option (ℕ × Part)) (h : Holds f dir)
    (hf : ∀ i pos p, dir i = some (pos, p) → p.Fits) (n i : ℕ) (hi : i + n = 64) (x : UInt64 × Bytes × State)
    (hc : Chain narrow (((List.ofFn dir).drop i).filterMap fun e => e.map Prod.snd) x.2.2) :
    passes narrow f n i x =
      .ok ((((List.ofFn dir).drop i).filterMap fun e => e.map Prod.snd).foldl (apply narrow) x.2.2) := by
  induction n generalizing i x with
  | zero =>
    have : (List.ofFn dir).drop i = [] := by rw [List.drop_eq_nil_iff]; simp; omega
    rw [this]
    rfl
  | succ n ih =>
    have hlt : i < 64 := by omega
    have hd : (List.ofFn dir).drop i = dir ⟨i, hlt⟩ :: (List.ofFn dir).drop (i + 1) := by
      rw [List.drop_eq_getElem_cons (by rw [List.length_ofFn]; omega), List.getElem_ofFn]
    rw [hd, List.filterMap_cons] at hc ⊢
    unfold passes
    cases he : dir ⟨i, hlt⟩ with
    | none =>
      rw [he] at hc
      simp only [Option.map_none] at hc ⊢
      obtain ⟨name, hn, ha⟩ := h.unused _ he
      rw [pass_unused narrow i name hn ha]
      simp only [Outcome.bind]
      exact ih (i + 1) (by omega) _ hc
    | some y =>
      obtain ⟨pos, p⟩ := y
      rw [he] at hc
      simp only [Option.map_some] at hc ⊢
      obtain ⟨h0, h63, ha, hp⟩ := h.entry _ _ _ he
      obtain ⟨t, c, e⟩ := pass_entry narrow i pos p h0 h63 ha hp (hf _ _ _ he) x hc.1
      rw [e]
      simp only [Outcome.bind]
      rw [List.foldl_cons]
      exact ih (i + 1) (by omega) _ hc.2

/-! ## All parts together -/

theorem fold_lists (narrow : UInt64 → UInt32) (ps : List Part) (s : State) :
    (ps.foldl (apply narrow) s).vort = s.vort ++ ps.flatMap Part.vortOf ∧
    (ps.foldl (apply narrow) s).heat = s.heat ++ ps.flatMap Part.heatOf ∧
    (ps.foldl (apply narrow) s).streakSrc = s.streakSrc ++ ps.flatMap Part.streakSrcOf ∧
    (ps.foldl (apply narrow) s).streak = s.streak ++ ps.flatMap Part.streakOf ∧
    (ps.foldl (apply narrow) s).sources = s.sources := by
  induction ps generalizing s with
  | nil => simp
  | cons p ps ih =>
    rw [List.foldl_cons]
    obtain ⟨a, b, c, d, e⟩ := ih (apply narrow s p)
    simp only [List.flatMap_cons, ← List.append_assoc]
    exact ⟨a, b, c, d, e⟩

theorem fold_head (narrow : UInt64 → UInt32) (ps : List Part) (s : State) :
    head (ps.foldl (apply narrow) s) = ((ps.filterMap Part.header?).getLast?).getD (head s) := by
  induction ps generalizing s with
  | nil => rfl
  | cons p ps ih =>
    rw [List.foldl_cons, ih, List.filterMap_cons]
    cases hp : p.header? with
    | none =>
      have : head (apply narrow s p) = head s := by simp [apply, hp, head, withHead]
      rw [this]
    | some h =>
      have : head (apply narrow s p) = h := by simp [apply, hp, head, withHead]
      rw [this, List.getLast?_cons]
      simp

theorem fold_bodies (narrow : UInt64 → UInt32) (ps : List Part) (s : State) :
    (ps.foldl (apply narrow) s).bodies = (ps.filter Part.OfBody).foldl (upd narrow) s.bodies := by
  induction ps generalizing s with
  | nil => rfl
  | cons p ps ih =>
    rw [List.foldl_cons, ih]
    have hb : (apply narrow s p).bodies = upd narrow s.bodies p := rfl
    rw [hb]
    by_cases h : p.OfBody = true
    · rw [List.filter_cons_of_pos h, List.foldl_cons]
    · rw [List.filter_cons_of_neg h]
      cases p <;> first | rfl | exact absurd rfl h

/-- The parts of bodies. -/
def bodyParts (bs : List (Data × List FileSeg)) : List Part := bs.flatMap fun b => [.bdata b.1, .contour b.2]

theorem fold_upd (narrow : UInt64 → UInt32) (bs : List (Data × List FileSeg)) (acc : List Body) :
    (bodyParts bs).foldl (upd narrow) acc = acc ++ bs.map fun b => addSegs narrow false (bare b.1) b.2 := by
  induction bs generalizing acc with
  | nil => simp [bodyParts]
  | cons b bs ih =>
    have : bodyParts (b :: bs) = .bdata b.1 :: .contour b.2 :: bodyParts bs := rfl
    rw [this, List.foldl_cons, List.foldl_cons, ih]
    simp [upd]

theorem chain_of (narrow : UInt64 → UInt32) (ps : List Part) (s : State)
    (h : (∃ bs, ps.filter Part.OfBody = bodyParts bs) ∨
      (s.bodies ≠ [] ∧ ∃ l bs, ps.filter Part.OfBody = .contour l :: bodyParts bs)) : Chain narrow ps s := by
  induction ps generalizing s with
  | nil => trivial
  | cons p ps ih =>
    have hb : (apply narrow s p).bodies = upd narrow s.bodies p := rfl
    cases p with
    | bdata d =>
      rw [List.filter_cons_of_pos rfl] at h
      refine ⟨trivial, ih _ (Or.inr ⟨by rw [hb]; simp [upd], ?_⟩)⟩
      rcases h with ⟨bs, h⟩ | ⟨_, l, bs, h⟩
      · cases bs with
        | nil => simp [bodyParts] at h
        | cons b bs =>
          have e : bodyParts (b :: bs) = .bdata b.1 :: .contour b.2 :: bodyParts bs := rfl
          rw [e] at h
          exact ⟨b.2, bs, (List.cons.inj h).2⟩
      · simp at h
    | contour l =>
      rw [List.filter_cons_of_pos rfl] at h
      rcases h with ⟨bs, h⟩ | ⟨hne, l', bs, h⟩
      · cases bs with
        | nil => simp [bodyParts] at h
        | cons b bs =>
          have e : bodyParts (b :: bs) = .bdata b.1 :: .contour b.2 :: bodyParts bs := rfl
          rw [e] at h
          simp at h
      · exact ⟨hne, ih _ (Or.inl ⟨bs, (List.cons.inj h).2⟩)⟩
    | header _ _ | vort _ | heat _ | streakSrc _ | streak _ =>
      rw [List.filter_cons_of_neg (by simp [Part.OfBody])] at h
      exact ⟨trivial, ih _ h⟩

/-! ## Codes -/

theorem lastOf_snoc (among : List Char) (l : List UInt64) (x : UInt64) :
    lastOf among (l ++ [x]) = if (among.any fun a => x = code a) then among.find? (fun c => x = code c) else lastOf among l := by
  unfold lastOf
  rw [List.filter_append]
  by_cases h : (among.any fun a => x = code a) = true
  · rw [if_pos h]
    simp [h]
  · rw [if_neg h]
    simp [h]

theorem lastOf_nil (among : List Char) : lastOf among [] = none := by
  unfold lastOf
  simp

theorem fold_slip (l : List UInt64) : l.foldl (fun o x => slipOf x o) false = decide (lastOf ['l', 'n'] l = some 'l') := by
  induction l using List.reverseRecOn with
  | nil => simp [lastOf_nil]
  | append_singleton l x ih =>
    rw [List.foldl_append, List.foldl_cons, List.foldl_nil, ih, lastOf_snoc]
    unfold slipOf
    by_cases h1 : x = code 'l'
    · subst h1; simp
    · by_cases h2 : x = code 'n'
      · subst h2; simp [show ¬ (code 'n' = code 'l') by decide]
      · simp [h1, h2]

theorem fold_bc (l : List UInt64) :
    l.foldl (fun o x => bcOf x o) .steady = if lastOf ['s', 'i', 'z'] l = some 'z' then .kutta else .steady := by
  induction l using List.reverseRecOn with
  | nil => simp [lastOf_nil]
  | append_singleton l x ih =>
    rw [List.foldl_append, List.foldl_cons, List.foldl_nil, ih, lastOf_snoc]
    unfold bcOf
    by_cases h1 : x = code 's'
    · subst h1; simp [show ¬ (code 's' = code 'l') by decide, show ¬ (code 's' = code 'n') by decide]
    · by_cases h2 : x = code 'i'
      · subst h2
        simp [show ¬ (code 'i' = code 'l') by decide, show ¬ (code 'i' = code 'n') by decide,
          show ¬ (code 'i' = code 's') by decide]
      · by_cases h3 : x = code 'z'
        · subst h3
          simp [show ¬ (code 'z' = code 'l') by decide, show ¬ (code 'z' = code 'n') by decide,
            show ¬ (code 'z' = code 's') by decide, show ¬ (code 'z' = code 'i') by decide]
        · simp [h1, h2, h3]

theorem fold_hc (l : List UInt64) :
    l.foldl (fun o x => hcOf x o) .neglect = match lastOf ['n', 'i', 't', 'w'] l with
      | some 'i' => .isolate
      | some 't' => .constT
      | some 'w' => .constW
      | _ => .neglect := by
  induction l using List.reverseRecOn with
  | nil => simp [lastOf_nil]
  | append_singleton l x ih =>
    rw [List.foldl_append, List.foldl_cons, List.foldl_nil, ih, lastOf_snoc]
    unfold hcOf
    by_cases h1 : x = code 'n'
    · subst h1; simp
    · by_cases h2 : x = code 'i'
      · subst h2; simp [show ¬ (code 'i' = code 'n') by decide]
      · by_cases h3 : x = code 't'
        · subst h3
          simp [show ¬ (code 't' = code 'n') by decide, show ¬ (code 't' = code 'i') by decide]
        · by_cases h4 : x = code 'w'
          · subst h4
            simp [show ¬ (code 'w' = code 'n') by decide, show ¬ (code 'w' = code 'i') by decide,
              show ¬ (code 'w' = code 't') by decide]
          · simp [h1, h2, h3, h4]

theorem segsFrom_get (narrow : UInt64 → UInt32) (l : List FileSeg) (b : Bool) (i : ℕ) :
    (segsFrom narrow b l)[i]? = (l[i]?).map fun x =>
      ⟨x.corner, x.g, ((l.take (i + 1)).map FileSeg.bc).foldl (fun o x => slipOf x o) b, narrow x.heat, x.gsum⟩ := by
  induction l generalizing b i with
  | nil => simp [segsFrom]
  | cons x l ih =>
    cases i with
    | zero => simp [segsFrom]
    | succ i => simp [segsFrom, ih]

theorem segsFrom_eq (narrow : UInt64 → UInt32) (l : List FileSeg) :
    segsFrom narrow false l = l.mapIdx fun i x => ⟨x.corner, x.g, Slips l i, narrow x.heat, x.gsum⟩ := by
  apply List.ext_getElem?
  intro i
  rw [segsFrom_get, List.getElem?_mapIdx]
  simp only [fold_slip]
  rfl

theorem addSegs_bare (narrow : UInt64 → UInt32) (d : Data) (l : List FileSeg) :
    addSegs narrow false (bare d) l = bodyOf narrow d l := by
  have h1 := fold_bc (l.map FileSeg.bc)
  have h2 := fold_hc (l.map FileSeg.hc)
  rw [List.foldl_map] at h1 h2
  have e1 : (bare d).bc = .steady := rfl
  have e2 : (bare d).hc = .neglect := rfl
  have e3 : (bare d).segs = [] := rfl
  unfold addSegs bodyOf
  rw [e1, e2, e3, h1, h2, segsFrom_eq]
  rfl

/-- **C117.**  A file of the old format has, in the order of its directory, the parts of `dir`: among them one header `h`,
and the parts of the bodies `bs`, for every body its parameters and then its contour.  Loading gives the simulation that
these parts describe, and nothing that was there before except the sources.  It does not matter where in the file the parts
stand. -/
theorem C117_contents (narrow : UInt64 → UInt32) (f : Bytes) (dir : Fin 64 → Option (ℕ × Part)) (hd : Holds f dir)
    (hf : ∀ p ∈ parts dir, p.Fits) (h : Header) (hh : (parts dir).filterMap Part.header? = [h])
    (bs : List (Data × List FileSeg)) (hb : (parts dir).filter Part.OfBody = bodyParts bs) (s : State) :
    load narrow f s = .ok
      { caption := h.caption, time := h.time, dt := h.dt, dtSave := h.dtSave, dtStreak := h.dtStreak, dtProfile := h.dtProfile,
        re := h.re, pr := h.pr, marker := h.marker, vx := h.vx, vy := h.vy, infG := h.infG, gravity := h.gravity,
        finish := h.finish,
        vort := (parts dir).flatMap Part.vortOf, heat := (parts dir).flatMap Part.heatOf, sources := s.sources,
        streakSrc := (parts dir).flatMap Part.streakSrcOf, streak := (parts dir).flatMap Part.streakOf,
        bodies := bs.map fun b => bodyOf narrow b.1 b.2 } := by
  have hmem : ∀ i pos p, dir i = some (pos, p) → p.Fits := by
    intro i pos p he
    apply hf
    unfold parts
    rw [List.mem_filterMap]
    exact ⟨some (pos, p), by rw [List.mem_ofFn]; exact ⟨i, he⟩, rfl⟩
  unfold load loadV13
  set s0 : State := { s with bodies := [], vort := [], heat := [], streakSrc := [], streak := [] } with hs0
  have hc : Chain narrow (parts dir) s0 := chain_of narrow _ _ (Or.inl ⟨bs, hb⟩)
  rw [passes_spec narrow dir hd hmem 64 0 (by omega) (0, List.replicate 8 0, s0) hc]
  congr 1
  have e := fold_head narrow (parts dir) s0
  rw [hh] at e
  simp only [List.getLast?_singleton, Option.getD_some] at e
  obtain ⟨a1, a2, a3, a4, a5⟩ := fold_lists narrow (parts dir) s0
  have a6 := fold_bodies narrow (parts dir) s0
  rw [hb, fold_upd] at a6
  have a7 : (((List.ofFn dir).drop 0).filterMap fun e => e.map Prod.snd) = parts dir := rfl
  rw [a7]
  generalize (parts dir).foldl (apply narrow) s0 = r at *
  subst e
  simp only [addSegs_bare] at a6
  rw [hs0] at a1 a2 a3 a4 a5 a6
  simp only [List.nil_append] at a1 a2 a3 a4 a5 a6
  rw [← a1, ← a2, ← a3, ← a4, ← a5, ← a6]
  rfl

/-- **C117**, where the parts stand.  Two files with the same parts in the same order load to the same simulation. -/
theorem C117_layout (narrow : UInt64 → UInt32) (f f' : Bytes) (dir dir' : Fin 64 → Option (ℕ × Part)) (hd : Holds f dir)
    (hd' : Holds f' dir') (he : parts dir = parts dir') (hf : ∀ p ∈ parts dir, p.Fits) (h : Header)
    (hh : (parts dir).filterMap Part.header? = [h]) (bs : List (Data × List FileSeg))
    (hb : (parts dir).filter Part.OfBody = bodyParts bs) (s : State) : load narrow f s = load narrow f' s := by
  rw [C117_contents narrow f dir hd hf h hh bs hb s,
    C117_contents narrow f' dir' hd' (he ▸ hf) h (he ▸ hh) bs (he ▸ hb) s, he]

/-- **C117**, other files.  A file whose first entry in the directory has a position and a name that is none of the format is
refused. -/
theorem C117_foreign (narrow : UInt64 → UInt32) (f : Bytes) (s : State) (pos name : Bytes) (h8 : pos.length = 8)
    (hn8 : name.length = 8) (h : At f 0 (pos ++ name)) (h0 : pos ≠ List.replicate 8 0)
    (hn : ∀ p : Part, name ≠ bytesOf p.name) : load narrow f s = .error := by
  have hz : u64 pos ≠ 0 := by
    intro e
    apply h0
    have hl : ∀ b : Bytes, le b = 0 → b = List.replicate b.length 0 := by
      intro b
      induction b with
      | nil => intro _; rfl
      | cons x b ih =>
        intro hb
        have h1 : x.toNat = 0 := by simp only [le] at hb; omega
        have h2 : le b = 0 := by simp only [le] at hb; omega
        have h3 : x = 0 := by rwa [← UInt8.toNat_inj]
        rw [List.length_cons, List.replicate_succ, ← ih h2, h3]
    have hlt : ∀ b : Bytes, le b < 256 ^ b.length := by
      intro b
      induction b with
      | nil => simp [le]
      | cons x b ih =>
        have := x.toNat_lt
        simp only [le, List.length_cons, pow_succ]
        omega
    have h1 := hlt pos
    rw [h8] at h1
    have h2 : le pos = 0 := by
      have := congrArg UInt64.toNat e
      unfold u64 at this
      rw [UInt64.toNat_ofNat', Nat.mod_eq_of_lt (by norm_num at h1 ⊢; exact h1)] at this
      simpa using this
    have := hl pos h2
    rwa [h8] at this
  have nd : V3 := zero3
  have n1 : name ≠ bytesOf "Header  " := hn (.header (head s) [])
  have n2 : name ≠ bytesOf "Vortexes" := hn (.vort [])
  have n3 : name ≠ bytesOf "Heat    " := hn (.heat [])
  have n4 : name ≠ bytesOf "StrkSrc " := hn (.streakSrc [])
  have n5 : name ≠ bytesOf "Streak  " := hn (.streak [])
  have n6 : name ≠ bytesOf "BData   " := hn (.bdata ⟨nd, nd, [], [], [], nd, nd, nd, 0, nd, nd, nd⟩)
  have n7 : name ≠ bytesOf "Body    " := hn (.contour [])
  have hfield : ∀ t q, loadField narrow f name t q = .error := by
    intro t q
    unfold loadField
    rw [if_neg n1, if_neg n2, if_neg n3, if_neg n4, if_neg n5, if_neg n6, if_neg n7]
  have h1 : ∀ old, Reads f (fread f 8 u64 old) pos (u64 pos) := fun old => reads_fread h8 rfl
  have h2 : ∀ old, Reads f (fread f 8 id old) name name := fun old => reads_fread hn8 rfl
  unfold load loadV13 passes pass
  simp only [Bind.bind, Rd.bind, Pure.pure, Nat.zero_mul]
  rw [h1 _ _ h.left]
  simp only
  rw [h2 _ _ h.right]
  simp only
  rw [if_neg hz]
  simp only [Rd.bind, hfield, Outcome.bind]

/-- **C117**, other versions.  A file whose first entry is a header of another version is refused. -/
theorem C117_version (narrow : UInt64 → UInt32) (f : Bytes) (s : State) (pos : ℕ) (version : Bytes) (h0 : 0 < pos)
    (h63 : pos < 2 ^ 63) (h : At f 0 (bytes 8 pos ++ bytesOf "Header  ")) (h8 : version.length = 8) (hv : At f pos version)
    (hne : version ≠ bytesOf "v: 1.3  ") : load narrow f s = .error := by
  have e : (u64 (bytes 8 pos)).toNat = pos := u64_bytes pos (by omega)
  have h1 : ∀ old, Reads f (fread f 8 u64 old) (bytes 8 pos) (u64 (bytes 8 pos)) := fun old => reads_fread (bytes_length _ _) rfl
  have h2 : ∀ old, Reads f (fread f 8 id old) (bytesOf "Header  ") (bytesOf "Header  ") := fun old => reads_fread (by decide) rfl
  have h3 : ∀ old, Reads f (fread f 8 id old) version version := fun old => reads_fread h8 rfl
  unfold load loadV13 passes pass
  simp only [Bind.bind, Rd.bind, Pure.pure, Nat.zero_mul]
  rw [h1 _ _ h.left]
  simp only
  rw [h2 _ _ h.right]
  simp only
  rw [if_neg (by intro h; rw [h] at e; simp at e; omega)]
  unfold loadField loadHeader
  simp only [↓reduceIte, e, Bind.bind, Rd.bind]
  rw [if_neg (by omega), h3 _ _ hv]
  simp only [if_pos hne, Outcome.bind]

/-! ## What goes wrong -/

/-- An empty file is loaded without complaint: everything is gone, the parameters are those of before. -/
theorem C117_empty_counterexample (narrow : UInt64 → UInt32) (s : State) :
    load narrow [] s = .ok { s with bodies := [], vort := [], heat := [], streakSrc := [], streak := [] } := by
  have hp : ∀ i c (s : State), pass narrow [] i (0, c, s) = .ok (0, c, s) := by
    intro i c s
    simp [pass, fread, Bind.bind, Rd.bind, Pure.pure]
  have : ∀ n i c (s : State), passes narrow [] n i (0, c, s) = .ok s := by
    intro n
    induction n with
    | zero => intros; rfl
    | succ n ih =>
      intro i c s
      unfold passes
      rw [hp]
      exact ih _ _ _
  exact this _ _ _ _

/-- The place of the Kutta condition is lost.  Two contours of the same segments without slip, with the condition at
different ones of them, load to the same body; its special segment is the first one. -/
theorem C117_kutta_counterexample (narrow : UInt64 → UInt32) (d : Data) (l : List FileSeg) (hl : ∀ x ∈ l, x.bc = code 'n')
    (a b : List FileSeg) (x : FileSeg) (ha : l = a ++ x :: b) (a' b' : List FileSeg) (x' : FileSeg) (ha' : l = a' ++ x' :: b') :
    bodyOf narrow d (a ++ { x with bc := code 'z' } :: b) = bodyOf narrow d (a' ++ { x' with bc := code 'z' } :: b') ∧
      (bodyOf narrow d (a ++ { x with bc := code 'z' } :: b)).bc = .kutta ∧
      (bodyOf narrow d (a ++ { x with bc := code 'z' } :: b)).special = 0 := by
  have key : ∀ (a b : List FileSeg) (x : FileSeg), l = a ++ x :: b →
      bodyOf narrow d (a ++ { x with bc := code 'z' } :: b) =
        { bodyOf narrow d l with bc := .kutta } := by
    intro a b x hab
    have hbc : ∀ y ∈ a ++ x :: b, y.bc = code 'n' := hab ▸ hl
    have hab' := hab
    have hA : ∀ y ∈ a, y.bc = code 'n' := fun y hy => hbc y (by simp [hy])
    have hB : ∀ y ∈ b, y.bc = code 'n' := fun y hy => hbc y (by simp [hy])
    have noslip : ∀ m : List FileSeg, (∀ y ∈ m, y.bc ≠ code 'l') → ∀ i, Slips m i = false := by
      intro m hm i
      unfold Slips lastOf
      rw [decide_eq_false_iff_not]
      intro h
      have := List.find?_some h
      simp only [decide_eq_true_eq] at this
      have := List.mem_of_getLast? this
      rw [List.mem_filter, List.mem_map] at this
      obtain ⟨⟨y, hy, e⟩, _⟩ := this
      exact hm y (List.mem_of_mem_take hy) e
    have s1 := noslip l (fun y hy => by rw [hl y hy]; decide)
    have s2 := noslip (a ++ { x with bc := code 'z' } :: b) (by
      intro y hy
      rcases List.mem_append.1 hy with h | h
      · rw [hA y h]; decide
      · rcases List.mem_cons.1 h with h | h
        · rw [h]; simp only; decide
        · rw [hB y h]; decide)
    have k : lastOf ['s', 'i', 'z'] ((a ++ { x with bc := code 'z' } :: b).map FileSeg.bc) = some 'z' := by
      have f0 : ∀ m : List FileSeg, (∀ y ∈ m, y.bc = code 'n') →
          (m.map FileSeg.bc).filter (fun x => ['s', 'i', 'z'].any fun a => x = code a) = [] := by
        intro m hm
        rw [List.filter_eq_nil_iff]
        intro c hc
        obtain ⟨y, hy, e⟩ := List.mem_map.1 hc
        rw [← e, hm y hy]
        decide
      unfold lastOf
      rw [List.map_append, List.map_cons, List.filter_append, List.filter_cons, f0 a hA, f0 b hB]
      simp [show ¬ code 'z' = code 's' by decide, show ¬ code 'z' = code 'i' by decide]
    unfold bodyOf
    simp only [s1, s2, if_pos k]
    subst hab
    simp [List.mapIdx_append, List.mapIdx_cons]
  have h1 := key a b x ha
  rw [h1, key a' b' x' ha']
  exact ⟨rfl, rfl, rfl⟩

/-- A file with one part, which stands behind the directory. -/
def single (name : String) (contents : Bytes) : Bytes :=
  bytes 8 1024 ++ bytesOf name ++ List.replicate 1008 0 ++ contents

/-- What the state is after loading. -/
def after (narrow : UInt64 → UInt32) (f : Bytes) (s : State) {α : Type} (φ : State → α) : Option α :=
  match load narrow f s with
  | .ok s => some (φ s)
  | _ => none

/-- The state of a new space, as far as it matters here. -/
def blank : State :=
  { caption := [], time := ⟨0, 1⟩, dt := ⟨1, 1⟩, dtSave := ⟨0, 1⟩, dtStreak := ⟨0, 1⟩, dtProfile := ⟨0, 1⟩, re := infBits, pr := 0,
    marker := ⟨0, 0⟩, vx := [], vy := [], infG := 0, gravity := ⟨0, 0⟩, finish := infBits, vort := [], heat := [], sources := [],
    streakSrc := [], streak := [], bodies := [] }

/-- A file that is cut off loads without complaint: of three vortices the file has only the first, and it is there three
times. -/
theorem C117_truncated_counterexample :
    after (fun _ => 0) (single "Vortexes" (bytes 8 3 ++ wObj ⟨1, 2, 3⟩)) blank State.vort =
      some [⟨1, 2, 3⟩, ⟨1, 2, 3⟩, ⟨1, 2, 3⟩] := by
  decide +kernel

/-- The contour of a body without its parameters: undefined behaviour. -/
theorem C117_contour_counterexample :
    load (fun _ => 0) (single "Body    " (Part.contour []).written) blank = .ub := by
  decide +kernel

/-- A caption that fills its place: undefined behaviour, it is read past its end. -/
theorem C117_caption_counterexample :
    load (fun _ => 0) (single "Header  " (bytesOf "v: 1.3  " ++ List.replicate 64 65 ++ List.replicate 128 0)) blank = .ub := by
  decide +kernel

/-- Whether a segment of the steady condition slips depends on the segment before it: between two segments with slip it
slips behind them, but not before them. -/
theorem C117_slip_counterexample (d : Data) (c : V2) :
    ((bodyOf (fun _ => 0) d [⟨c, 0, code 'l', code 'n', 0, 0⟩, ⟨c, 0, code 's', code 'n', 0, 0⟩]).segs.map Seg.slip = [true, true]) ∧
    ((bodyOf (fun _ => 0) d [⟨c, 0, code 's', code 'n', 0, 0⟩, ⟨c, 0, code 'l', code 'n', 0, 0⟩]).segs.map Seg.slip = [false, true]) := by
  constructor <;> rfl

end Vvflow.Legacy
