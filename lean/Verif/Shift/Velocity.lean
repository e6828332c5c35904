import Verif.Shift.Tree
import Verif.Accuracy.Model
/-!
# C130: velocities, friction, pressure, stream function elsewhere
-/
set_option linter.unusedSectionVars false
namespace Vvflow.Shift
open Vvflow.Flow Vvflow.Forces Vvflow.Xfield

section
variable {K : Type} [Field K] [LinearOrder K] [IsStrictOrderedRing K]

/-! ## Diffusion -/

theorem sums12_shift (lib : Lib K) (c : Vec K) (v : Obj K) (near : List (Obj K)) :
    sums12 lib (obj c v) (near.map (obj c)) = sums12 lib v near := by
  unfold sums12
  rw [List.foldl_map]
  congr 1
  funext s o
  simp only [vortexInf, obj, sub_shift]

theorem inRange_shift (lib : Lib K) (c : Vec K) (v : Obj K) (k : Att K) : inRange lib (obj c v) (att c k) = inRange lib v k := by
  simp only [inRange, obj, att, sub_shift]

theorem expTo_shift (lib : Lib K) (c : Vec K) (v : Obj K) (k : Att K) : expTo lib (obj c v) (att c k) = expTo lib v k := by
  simp only [expTo, obj, att, sub_shift]

theorem segmentInf_shift (lib : Lib K) (c : Vec K) (v : Obj K) (k : Att K) (s : Vec K × Option K) :
    segmentInf lib (obj c v) (att c k) s = segmentInf lib v k s := by
  have e : (obj c v).r - (att c k).r = v.r - k.r := sub_shift c _ _
  unfold segmentInf
  rw [inRange_shift, expTo_shift, e]
  rfl

theorem sums30_shift (lib : Lib K) (c : Vec K) (v : Obj K) (segs : List (Att K)) :
    sums30 lib (obj c v) (segs.map (att c)) = sums30 lib v segs := by
  unfold sums30
  rw [List.foldl_map]
  congr 1
  funext s k
  exact segmentInf_shift lib c v k s

/-- **C130** (diffusion of vortices).  The velocity of diffusion is the same. -/
theorem C130_diffusion (lib : Lib K) (re : K) (c : Vec K) (v : Obj K) (near : List (Obj K)) (segs : List (Att K)) :
    diffuseV lib re (obj c v) (near.map (obj c)) (segs.map (att c)) = diffuseV lib re v near segs := by
  unfold diffuseV
  rw [sums12_shift, sums30_shift]
  rfl

/-- **C130** (diffusion of heat). -/
theorem C130_diffusionH (lib : Lib K) (re pr : K) (c : Vec K) (v : Obj K) (near : List (Obj K)) (segs : List (Att K)) :
    diffuseH lib re pr (obj c v) (near.map (obj c)) (segs.map (att c)) = diffuseH lib re pr v near segs := by
  unfold diffuseH
  rw [sums12_shift, sums30_shift]
  rfl

/-- A node of the diffusion. -/
def dnode (c : Vec K) (n : DNode K) : DNode K := ⟨n.parts.map (obj c), n.nearSegs⟩

theorem modify_att (c : Vec K) (f g : Att K → Att K) (h : ∀ a, g (att c a) = att c (f a)) (l : List (Att K)) (j : Nat) :
    (l.map (att c)).modify j g = (l.modify j f).map (att c) := by
  induction l generalizing j with
  | nil => simp
  | cons a t ih => cases j <;> simp [h, ih]

/-- **C130** (friction on the segments). -/
theorem C130_friction (lib : Lib K) (c : Vec K) (nodes : List (DNode K)) (segs : List (Att K)) :
    friction lib (nodes.map (dnode c)) (segs.map (att c)) = (friction lib nodes segs).map (att c) := by
  have one : ∀ (v : Obj K) (k : Att K), addFric lib (obj c v) (att c k) = att c (addFric lib v k) := by
    intro v k
    unfold addFric
    rw [inRange_shift, expTo_shift]
    by_cases h : inRange lib v k = true
    · rw [if_pos h, if_pos h]; rfl
    · rw [if_neg h, if_neg h]
  have near : ∀ (v : Obj K) (near : List Nat) (segs : List (Att K)),
      near.foldl (fun s k => s.modify k (addFric lib (obj c v))) (segs.map (att c)) =
        (near.foldl (fun s k => s.modify k (addFric lib v)) segs).map (att c) := by
    intro v near
    induction near with
    | nil => intro segs; rfl
    | cons k t ih => intro segs; rw [List.foldl_cons, List.foldl_cons, modify_att c _ _ (one v), ih]
  have part : ∀ (ps : List (Obj K)) (near : List Nat) (segs : List (Att K)),
      (ps.map (obj c)).foldl (fricPart lib near) (segs.map (att c)) = (ps.foldl (fricPart lib near) segs).map (att c) := by
    intro ps l
    induction ps with
    | nil => intro segs; rfl
    | cons v t ih =>
      intro segs
      rw [List.map_cons, List.foldl_cons, List.foldl_cons, ← ih]
      congr 1
      unfold fricPart
      rw [show (obj c v).g = v.g from rfl, near]
      by_cases h : v.g = 0
      · rw [if_pos h, if_pos h]
      · rw [if_neg h, if_neg h]
  unfold friction
  induction nodes generalizing segs with
  | nil => rfl
  | cons n t ih =>
    rw [List.map_cons, List.foldl_cons, List.foldl_cons, ← ih]
    congr 1
    exact part n.parts n.nearSegs segs

/-! ## Forces -/

theorem loop_shift (lib : Lib K) (re pr dt : K) (c : Vec K) (l : List (Att K)) : ∀ f : FState K,
    forceLoop lib re pr dt ⟨f.gsum, moment c f.friction, f.nusselt⟩ (l.map (att c)) =
      (⟨(forceLoop lib re pr dt f l).1.gsum, moment c (forceLoop lib re pr dt f l).1.friction, (forceLoop lib re pr dt f l).1.nusselt⟩,
        (forceLoop lib re pr dt f l).2.map (att c)) := by
  induction l with
  | nil => intro f; rfl
  | cons a t ih =>
    intro f
    rw [List.map_cons, forceLoop, forceLoop]
    simp only
    have e : (⟨(moment c f.friction).r - (att c a).dl.smul ((att c a).fric * (1 / (lib.pi * re)) / (att c a).dl.abs lib.sqrt),
        (moment c f.friction).o - (att c a).r.rotl.dot (att c a).dl *
          ((att c a).fric * (1 / (lib.pi * re)) / (att c a).dl.abs lib.sqrt)⟩ : Vec3 K) =
        moment c ⟨f.friction.r - a.dl.smul (a.fric * (1 / (lib.pi * re)) / a.dl.abs lib.sqrt),
          f.friction.o - a.r.rotl.dot a.dl * (a.fric * (1 / (lib.pi * re)) / a.dl.abs lib.sqrt)⟩ := by
      simp only [moment, att]
      generalize a.fric * (1 / (lib.pi * re)) / a.dl.abs lib.sqrt = k
      ext
      · rfl
      · rfl
      · simp [Vec.dot]; ring
    rw [e]
    have := ih ⟨f.gsum + a.gsum, ⟨f.friction.r - a.dl.smul (a.fric * (1 / (lib.pi * re)) / a.dl.abs lib.sqrt),
          f.friction.o - a.r.rotl.dot a.dl * (a.fric * (1 / (lib.pi * re)) / a.dl.abs lib.sqrt)⟩, f.nusselt + a.hsum * (re * pr)⟩
    simp only [List.map_cons]
    rw [show (att c a).gsum = a.gsum from rfl, show (att c a).hsum = a.hsum from rfl, this]
    rfl

/-- **C130** (friction force).  `calc_forces` gives the same pressure, friction, heat flux of the segments, the same friction force and
heat flux of the body; the friction torque it stores is the moment about the origin, so it changes by the moment of the
friction force. -/
theorem C130_forces (lib : Lib K) (re pr : K) (c : Vec K) (s : Space K) :
    calcForces lib re pr (space c s) = space c (calcForces lib re pr s) := by
  unfold calcForces
  simp only [space, List.map_map]
  congr 1
  apply List.map_congr_left
  intro b _
  simp only [Function.comp]
  unfold bodyForces
  have h := loop_shift lib re pr (toK s.dt) c b.alist ⟨0, 0, b.nusselt⟩
  have h0 : moment c (0 : Vec3 K) = 0 := by
    ext
    · rfl
    · rfl
    · show (0 : K) + (-c.y * 0 + c.x * 0) = 0
      ring
  simp only [h0] at h
  simp only [body, h]

/-! ## Convection -/

theorem nearInf_shift (pi : K) (c : Vec K) (near : List (Obj K)) (p : Vec K) :
    nearInf pi (near.map (obj c)) (p + c) = nearInf pi near p := by
  unfold nearInf
  rw [List.foldl_map]
  congr 2
  funext s o
  simp only [biotSavart, obj, sub_shift]

theorem farInf_shift (pi : K) (c d : Vec K) (far : List (Tree.Mass K × Tree.Mass K)) (p : Vec K) :
    farInf pi (d + c) (far.map fun m => (mass c m.1, mass c m.2)) (p + c) = farInf pi d far p := by
  have e : ∀ m : Tree.Mass K, taylorOne (d + c) (mass c m) = taylorOne d m := by
    intro m
    simp only [taylorOne, mass, Vec.add_x, Vec.add_y, add_sub_add_right_eq_sub]
  have e2 : taylorSum (d + c) (far.map fun m => (mass c m.1, mass c m.2)) = taylorSum d far := by
    unfold taylorSum
    rw [List.foldl_map]
    simp only [e]
  simp only [farInf, e2, sub_shift]

theorem sinkInf_shift (pi dt : K) (c : Vec K) (srcs : List (Obj K)) (p : Vec K) :
    sinkInf pi dt (srcs.map (obj c)) (p + c) = sinkInf pi dt srcs p := by
  unfold sinkInf
  rw [List.foldl_map]
  congr 2
  funext s o
  simp only [sinkOne, obj, sub_shift]

theorem slipInf_shift (pi : K) (c : Vec K) (bs : List (Body K)) (p : Vec K) :
    slipInf pi (bs.map (body c)) (p + c) = slipInf pi bs p := by
  unfold slipInf
  rw [List.foldl_map]
  congr 2
  funext s b
  rw [show (body c b).slip = b.slip from rfl]
  by_cases h : b.slip = true
  · rw [if_pos h, if_pos h]
    simp only [body, List.foldl_map]
    congr 1
    funext s a
    simp only [att, biotSavart, sub_shift]
  · rw [if_neg h, if_neg h]

/-- **C130** (convection).  The same velocity of a particle, bodies being at rest. -/
theorem C130_convect (pi dt : K) (inf : Vec K) (c : Vec K) (srcs : List (Obj K)) (bs : List (Body K)) (d : Vec K)
    (far : List (Tree.Mass K × Tree.Mass K)) (near : List (Obj K)) (o : Obj K) :
    convect pi dt inf (srcs.map (obj c)) (bs.map (body c)) (d + c) (far.map fun m => (mass c m.1, mass c m.2))
      (near.map (obj c)) (obj c o) = convect pi dt inf srcs bs d far near o := by
  unfold convect
  rw [show (obj c o).g = o.g from rfl, show (obj c o).r = o.r + c from rfl, nearInf_shift, sinkInf_shift, slipInf_shift, farInf_shift]
end

/-! ## Velocity at a point -/

theorem surfVel_shift (c : Vec ℝ) (b : Body ℝ) (q : Vec ℝ) : surfVel (body c b) (q + c) = surfVel b q := by
  simp only [surfVel, axis_shift, sub_shift]
  rfl

theorem linear_shift (c p : Vec ℝ) (a : Att ℝ) (q1 q2 : ℝ) : linearSource (p + c) (att c a) q1 q2 = linearSource p a q1 q2 := by
  have e : toC (p + c) = toC p + toC c := rfl
  have e2 : toC (att c a).r = toC a.r + toC c := rfl
  unfold linearSource
  simp only [e, e2]
  have e3 : (toC p + toC c) - (toC a.r + toC c - toC (att c a).dl * (1 / 2)) = toC p - (toC a.r - toC a.dl * (1 / 2)) := by
    simp only [att]; ring
  have e4 : (toC p + toC c) - (toC a.r + toC c + toC (att c a).dl * (1 / 2)) = toC p - (toC a.r + toC a.dl * (1 / 2)) := by
    simp only [att]; ring
  rw [e3, e4]
  rfl

theorem movingOne_shift (c p : Vec ℝ) (b : Body ℝ) (a : Att ℝ) : movingOne (body c b) (p + c) (att c a) = movingOne b p a := by
  have e1 : p + c - (att c a).r = p - a.r := sub_shift c _ _
  have e2 : surfVel (body c b) (att c a).corner = surfVel b a.corner := surfVel_shift c b a.corner
  have e3 : surfVel (body c b) ((att c a).corner + (att c a).dl) = surfVel b (a.corner + a.dl) := by
    rw [← surfVel_shift c b]
    congr 1
    simp only [att]; abel
  have e4 : surfVel (body c b) (att c a).r = surfVel b a.r := surfVel_shift c b a.r
  unfold movingOne
  simp only [e1, e2, e3, e4, linear_shift]
  rfl

theorem movingInf_shift (c p : Vec ℝ) (bs : List (Body ℝ)) : movingInf (bs.map (body c)) (p + c) = movingInf bs p := by
  unfold movingInf
  rw [List.foldl_map]
  congr 2
  funext s b
  rw [show (body c b).speedSlae = b.speedSlae from rfl]
  by_cases h : isZero3 b.speedSlae = true
  · rw [if_pos h, if_pos h]
  · rw [if_neg h, if_neg h]
    simp only [body, List.foldl_map]
    congr 1
    funext s a
    rw [← movingOne_shift c p b a]
    rfl

theorem farVel_shift (c p : Vec ℝ) (far : List (Tree.Mass ℝ × Tree.Mass ℝ)) :
    farVel (far.map fun m => (mass c m.1, mass c m.2)) (p + c) = farVel far p := by
  unfold farVel
  rw [List.foldl_map]
  have e : ∀ m : Tree.Mass ℝ, biotMass (mass c m) (p + c) = biotMass m p := by
    intro m
    have : p + c - (⟨m.rx + c.x, m.ry + c.y⟩ : Vec ℝ) = p - ⟨m.rx, m.ry⟩ := by
      ext <;> simp
    simp only [biotMass, mass, this]
  simp only [e]

variable {far : ℤ} {part part' : Tree.Obj ℝ → Obj ℝ}

theorem vorts_shift (c : Vec ℝ) (l : List (Tree.Tree ℝ)) : Accuracy.vorts (l.map (tree c)) = (Accuracy.vorts l).map (tobj c) := by
  simp only [Accuracy.vorts, List.flatMap_map, List.map_flatMap, leaves_shift]
  rfl

/-- What the node of a particle sees. -/
theorem viewOf_shift (c : Vec ℝ) (hp : ∀ o, part' (tobj c o) = obj c (part o)) (t : Tree.Tree ℝ) (me : Tree.Box ℝ) :
    Accuracy.viewOf far part' (tree c t) (box c me) =
      ⟨(Accuracy.viewOf far part t me).near.map (obj c), (Accuracy.viewOf far part t me).far.map fun m => (mass c m.1, mass c m.2)⟩ := by
  unfold Accuracy.viewOf
  rw [findNear_shift]
  simp only [vorts_shift, List.map_map]
  congr 1
  · apply List.map_congr_left
    intro o _
    exact hp o
  · apply List.map_congr_left
    intro s _
    exact masses_shift c s

/-- **C130** (velocity of particles).  Wherever the origin is, `process_all_lists` gives a particle the same velocity: near vortices, far
nodes, sources, bodies and the inflow taken together.  `part'` gives the particles of the scene put elsewhere. -/
theorem C130_particle (c : Vec ℝ) (hp : ∀ o, part' (tobj c o) = obj c (part o)) (s : Space ℝ) (t : Tree.Tree ℝ) (me : Tree.Box ℝ)
    (p : Vec ℝ) :
    Accuracy.particleVel (space c s) far part' (tree c t) (box c me) (p + c) = Accuracy.particleVel s far part t me p := by
  unfold Accuracy.particleVel
  rw [viewOf_shift c hp]
  have e : (⟨(box c me).x, (box c me).y⟩ : Vec ℝ) = ⟨me.x, me.y⟩ + c := rfl
  rw [e, farInf_shift, nearInf_shift]
  simp only [space, sinkInf_shift, slipInf_shift, movingInf_shift]

/-- **C130** (velocity at a point).  The same for the velocity at a point, as in maps of velocity and in sensors. -/
theorem C130_velocity (c : Vec ℝ) (hp : ∀ o, part' (tobj c o) = obj c (part o)) (s : Space ℝ) (t : Tree.Tree ℝ) (p : Vec ℝ) :
    Accuracy.velocityAt (space c s) far part' (tree c t) (p + c) = Accuracy.velocityAt s far part t p := by
  unfold Accuracy.velocityAt Accuracy.viewAt velocity
  have e : (Tree.findNode (p + c).x (p + c).y (tree c t)).1 = box c (Tree.findNode p.x p.y t).1 := by
    rw [show (p + c).x = p.x + c.x from rfl, show (p + c).y = p.y + c.y from rfl, findNode_shift]
  simp only [e, viewOf_shift c hp, farVel_shift, nearInf_shift]
  simp only [space, sinkInf_shift, slipInf_shift, movingInf_shift]

/-! ## Pressure and stream function -/

theorem kern_shift (c q p : Vec ℝ) : kern (q + c) (p + c) = kern q p := by
  simp only [kern, sub_shift]

/-- **C130** (pressure).  The pressure at a point is the same if the velocity is. -/
theorem C130_pressure (c : Vec ℝ) (s : Space ℝ) (u u' : Vec ℝ → Vec ℝ) (frame : Char) (ref p : Vec ℝ) (hu : u' (p + c) = u p) :
    pressure (space c s) u' frame ref (p + c) = pressure s u frame ref p := by
  have e1 : ∀ (dt : ℝ) (l : List (Att ℝ)) (x : ℝ × ℝ),
      (l.map (att c)).foldl (fun (s : ℝ × ℝ) (a : Att ℝ) =>
        (s.1 + a.gsum, s.2 - (a.dl.div dt).dot (kern a.r (p + c)).rotl * (s.1 + a.gsum))) x =
      l.foldl (fun (s : ℝ × ℝ) (a : Att ℝ) => (s.1 + a.gsum, s.2 - (a.dl.div dt).dot (kern a.r p).rotl * (s.1 + a.gsum))) x := by
    intro dt l x
    rw [List.foldl_map]
    simp only [att, kern_shift]
  have e2 : ∀ (b : Body ℝ) (x : ℝ), presSurf (body c b) (p + c) x = presSurf b p x := by
    intro b x
    unfold presSurf
    rw [show (body c b).alist = b.alist.map (att c) from rfl, List.foldl_map]
    congr 1
    funext x a
    rw [show (att c a).r = a.r + c from rfl, kern_shift, surfVel_shift]
    rfl
  have e3 : presSum (toK s.dt) (s.bodies.map (body c)) (s.vort.map (obj c)) (p + c) = presSum (toK s.dt) s.bodies s.vort p := by
    unfold presSum
    simp only [List.foldl_map]
    have e4 : (fun (acc : ℝ) (b : Body ℝ) => presGen (toK s.dt) (body c b).alist (p + c) (presSurf (body c b) (p + c) acc)) =
        fun acc b => presGen (toK s.dt) b.alist p (presSurf b p acc) := by
      funext acc b
      rw [e2]
      unfold presGen
      rw [show (body c b).alist = b.alist.map (att c) from rfl, e1]
    rw [e4]
    congr 1
    funext acc o
    rw [show (obj c o).r = o.r + c from rfl, kern_shift]
    rfl
  unfold pressure
  rw [hu]
  simp only [space, e3]

theorem psiBodies_shift (c p : Vec ℝ) (rd2 : ℝ) (bs : List (Body ℝ)) :
    psiBodies rd2 (bs.map (body c)) (p + c) = psiBodies rd2 bs p := by
  have e1 : ∀ (q d : Vec ℝ) (g : ℝ), psiQatt (p + c) (q + c) (d + c) g = psiQatt p q d g := by
    intro q d g
    simp only [psiQatt, sub_shift]
  unfold psiBodies
  rw [List.foldl_map]
  congr 1
  funext s b
  rw [show (body c b).speedSlae = b.speedSlae from rfl, show (body c b).alist = b.alist.map (att c) from rfl]
  simp only [List.foldl_map]
  rw [show (body c b).cofm = b.cofm + c from rfl]
  have e2 : ∀ a : Att ℝ, (att c a).r = a.r + c := fun a => rfl
  have e3 : ∀ a : Att ℝ, (att c a).g = a.g := fun a => rfl
  have e4 : ∀ a : Att ℝ, (att c a).dl = a.dl := fun a => rfl
  simp only [e2, e3, e4, sub_shift, surfVel_shift, e1]

/-- **C130** (stream function).  The stream function changes by one and the same number at all points, so the flow rate between two
points is the same. -/
theorem C130_stream (c : Vec ℝ) (s : Space ℝ) (p q : Vec ℝ) :
    streamAt (space c s) (p + c) - streamAt (space c s) (q + c) = streamAt s p - streamAt s q := by
  have e0 : rd2Of (space c s) = rd2Of s := by
    unfold rd2Of avgSeg
    simp only [space]
    cases s.bodies with
    | nil => rfl
    | cons b t => simp [body]
  have e : ∀ p : Vec ℝ, streamAt (space c s) (p + c) = streamAt s p + c.dot (s.infSpeed (toK s.time)).rotl := by
    intro p
    unfold streamAt
    rw [e0]
    simp only [space, psiBodies_shift, List.foldl_map]
    have e2 : ∀ o : Obj ℝ, (obj c o).r = o.r + c := fun o => rfl
    have e3 : ∀ o : Obj ℝ, (obj c o).g = o.g := fun o => rfl
    simp only [e2, e3, sub_shift]
    have e4 : (p + c).dot (s.infSpeed (toK s.time)).rotl =
        p.dot (s.infSpeed (toK s.time)).rotl + c.dot (s.infSpeed (toK s.time)).rotl := by
      simp [Vec.dot]; ring
    rw [e4]; ring
  rw [e, e]; ring

end Vvflow.Shift
