import Verif.Lemmas.LibraryMoved
import Verif.Model.Gjk
/-
Contacts between colliders depend only on where these are relative to each other.
-/
namespace Simu

section
variable {K : Type*} [Field K] [LinearOrder K] [IsStrictOrderedRing K]

/-- The edge, moved by `d`. -/
def shiftEnds (d : Vec2 K) (e : Vec2 K × Vec2 K) : Vec2 K × Vec2 K := (e.1 + d, e.2 + d)

theorem dot_add_left (a b c : Vec2 K) : Vec2.dot (a + b) c = Vec2.dot a c + Vec2.dot b c := by
  simp [Vec2.dot]; ring

theorem sub_shift (a b d : Vec2 K) : a + d - (b + d) = a - b := add_sub_add_right_eq_sub a b d

theorem furthest_shift (l : List (Vec2 K)) (dir d : Vec2 K) : furthestVertexInDirection (l.map (· + d)) dir = (furthestVertexInDirection l dir).bind fun v => .ok (v + d) := by
  have key : ∀ (l : List (Vec2 K)) (s : Vec2 K × K), (l.map (· + d)).foldl (supportStep dir) (s.1 + d, s.2 + Vec2.dot d dir) =
      ((l.foldl (supportStep dir) s).1 + d, (l.foldl (supportStep dir) s).2 + Vec2.dot d dir) := by
    intro l
    induction l with
    | nil => intro s; rfl
    | cons v l ih =>
      intro s
      rw [List.map_cons, List.foldl_cons, List.foldl_cons, ← ih]
      congr 1
      unfold supportStep
      dsimp only
      rw [dot_add_left]
      by_cases h : s.2 < Vec2.dot v dir
      · rw [if_pos h, if_pos (by simpa using h)]
      · rw [if_neg h, if_neg (by simpa using h)]
  unfold furthestVertexInDirection
  cases Outcome.check (decide (dir.x ≠ 0) || decide (dir.y ≠ 0)) with
  | throw => rfl
  | ub => rfl
  | ok a =>
    cases l with
    | nil => rfl
    | cons v l =>
      have := congrArg Prod.fst (key (v :: l) (v, Vec2.dot v dir))
      rw [← dot_add_left] at this
      exact congrArg Outcome.ok this

theorem support_shift (first second : List (Vec2 K)) (d dir : Vec2 K) : Gjk.support (first.map (· + d)) (second.map (· + d)) dir = Gjk.support first second dir := by
  unfold Gjk.support
  rw [furthest_shift, furthest_shift]
  cases furthestVertexInDirection first dir with
  | throw => rfl
  | ub => rfl
  | ok a =>
    cases furthestVertexInDirection second (-dir) with
    | throw => rfl
    | ub => rfl
    | ok b => exact congrArg Outcome.ok (sub_shift a b d)

theorem Gjk.run_shift (first second : List (Vec2 K)) (d : Vec2 K) (fuel : Nat) (s : Simplex K) : Gjk.run (first.map (· + d)) (second.map (· + d)) fuel s = Gjk.run first second fuel s := by
  induction fuel generalizing s with
  | zero => rfl
  | succ fuel ih =>
    unfold Gjk.run Gjk.iterate
    simp only [support_shift, ih]

theorem Gjk.expand_shift (first second : List (Vec2 K)) (d : Vec2 K) (fuel : Nat) (l : List (Vec2 K)) : Gjk.expand (first.map (· + d)) (second.map (· + d)) fuel l = Gjk.expand first second fuel l := by
  induction fuel generalizing l with
  | zero => rfl
  | succ fuel ih =>
    unfold Gjk.expand
    simp only [support_shift, ih]

theorem Gjk.refine_shift (first second : List (Vec2 K)) (d : Vec2 K) (fuel : Nat) (s : Simplex K) : Gjk.refine (first.map (· + d)) (second.map (· + d)) fuel s = Gjk.refine first second fuel s := by
  induction fuel generalizing s with
  | zero => rfl
  | succ fuel ih =>
    unfold Gjk.refine
    simp only [support_shift, ih]

theorem EdgeIt.ends_shift (l : List (Vec2 K)) (e : EdgeIt) (d : Vec2 K) : e.ends (l.map (· + d)) = (e.ends l).bind fun x => .ok (shiftEnds d x) := by
  unfold EdgeIt.ends
  rw [List.getElem?_map, List.getElem?_map]
  cases l[e.src]? <;> cases l[e.dst]? <;> rfl

theorem edgeDirection_shift (e : Vec2 K × Vec2 K) (d : Vec2 K) : edgeDirection (shiftEnds d e) = edgeDirection e := sub_shift _ _ _

theorem edgeNormal_shift (e : Vec2 K × Vec2 K) (d : Vec2 K) : edgeNormal (shiftEnds d e) = edgeNormal e := by
  unfold edgeNormal; rw [edgeDirection_shift]

theorem edgeUnitNormal_shift (sqrt : K → K) (e : Vec2 K × Vec2 K) (d : Vec2 K) : edgeUnitNormal sqrt (shiftEnds d e) = edgeUnitNormal sqrt e := by
  unfold edgeUnitNormal; rw [edgeNormal_shift]

theorem computeContactEdge_shift (sqrt : K → K) (l : List (Vec2 K)) (dir d : Vec2 K) : computeContactEdge sqrt (l.map (· + d)) dir = computeContactEdge sqrt l dir := by
  unfold computeContactEdge
  rw [furthest_shift]
  cases furthestVertexInDirection l dir with
  | throw => rfl
  | ub => rfl
  | ok v =>
    show ((EdgeIt.visit (l.map (· + d)).length).bind _) = ((EdgeIt.visit l.length).bind _)
    rw [List.length_map]
    have hp : (fun e : EdgeIt => decide ((l.map (· + d))[e.dst]? = some (v + d))) = fun e => decide (l[e.dst]? = some v) := by
      funext e
      rw [List.getElem?_map]
      cases l[e.dst]? with
      | none => simp
      | some w => simp
    cases EdgeIt.visit l.length with
    | throw => rfl
    | ub => rfl
    | ok es =>
      show (match es.find? (fun e : EdgeIt => decide ((l.map (· + d))[e.dst]? = some (v + d))) with | none => _ | some previous => _) = _
      rw [hp]
      simp only [Outcome.bind, EdgeIt.ends_shift]
      cases es.find? (fun e => decide (l[e.dst]? = some v)) with
      | none => rfl
      | some p =>
        dsimp only
        cases p.next l.length with
        | throw => rfl
        | ub => rfl
        | ok n =>
          dsimp only
          cases n.ends l with
          | throw => rfl
          | ub => rfl
          | ok a =>
            cases p.ends l with
            | throw => rfl
            | ub => rfl
            | ok b =>
              dsimp only
              rw [edgeUnitNormal_shift, edgeUnitNormal_shift]

theorem clipInside_shift (e o : Vec2 K × Vec2 K) (d : Vec2 K) : clipInside (shiftEnds d e) (shiftEnds d o) = (clipInside e o).bind fun v => .ok (v + d) := by
  unfold clipInside
  rw [edgeDirection_shift, edgeNormal_shift, edgeDirection_shift]
  split
  · rfl
  · have : (shiftEnds d o).1 - (shiftEnds d e).1 = o.1 - e.1 := sub_shift _ _ _
    dsimp only
    rw [this]
    cases (Solver2.mk' (⟨![(edgeDirection e).x, (edgeDirection o).x, (edgeDirection e).y, (edgeDirection o).y]⟩ : Mat K 2 2)).solve (Mat.ofFn ![(o.1 - e.1).x, (o.1 - e.1).y]) with
    | throw => rfl
    | ub => rfl
    | ok c => exact congrArg Outcome.ok (add_right_comm _ _ _)

theorem incidentContacts_shift (r p n i : Vec2 K × Vec2 K) (w d : Vec2 K) :
    incidentContacts (shiftEnds d r) (shiftEnds d p) (shiftEnds d n) (shiftEnds d i) w = (incidentContacts r p n i w).bind fun l => .ok (l.map (· + d)) := by
  unfold incidentContacts
  rw [clipInside_shift, clipInside_shift]
  cases clipInside i p with
  | throw => rfl
  | ub => rfl
  | ok a =>
    cases clipInside i n with
    | throw => rfl
    | ub => rfl
    | ok b =>
      simp only [Outcome.bind]
      rw [show a + d - (shiftEnds d r).1 = a - r.1 from sub_shift _ _ _, show b + d - (shiftEnds d r).1 = b - r.1 from sub_shift _ _ _]
      split_ifs <;> simp_all

theorem closestPoint_shift (A B Q d : Vec2 K) : (LineBarycentric.mk' (A + d) (B + d) (Q + d)).closestPoint = (LineBarycentric.mk' A B Q).closestPoint + d := by
  unfold LineBarycentric.mk'
  dsimp only
  rw [sub_shift, sub_shift, add_right_comm]

/-- The contacts of the manifold, still in world coordinates, moved by `d`. -/
def Manifold.shift (m : Manifold K) (d : Vec2 K) : Manifold K := { m with contacts := fun b c => if c.val < m.nContacts then m.contacts b c + d else m.contacts b c }

theorem computeContacts_shift (m : Manifold K) (verts : Fin 2 → List (Vec2 K)) (es : Fin 2 → EdgeIt) (d : Vec2 K) :
    computeContacts m (fun i => (verts i).map (· + d)) es = (computeContacts m verts es).bind fun m => .ok (m.shift d) := by
  unfold computeContacts
  dsimp only
  rw [List.length_map]
  simp only [EdgeIt.ends_shift]
  cases (es m.refIndex).previous (verts m.refIndex).length with
  | throw => rfl
  | ub => rfl
  | ok pe =>
  cases (es m.refIndex).next (verts m.refIndex).length with
  | throw => rfl
  | ub => rfl
  | ok ne =>
  simp only [Outcome.bind]
  cases (es m.refIndex).ends (verts m.refIndex) with
  | throw => rfl
  | ub => rfl
  | ok r =>
  cases (es m.incIndex).ends (verts m.incIndex) with
  | throw => rfl
  | ub => rfl
  | ok i =>
  cases pe.ends (verts m.refIndex) with
  | throw => rfl
  | ub => rfl
  | ok p =>
  cases ne.ends (verts m.refIndex) with
  | throw => rfl
  | ub => rfl
  | ok n =>
  dsimp only
  rw [incidentContacts_shift]
  cases incidentContacts r p n i (-m.normal) with
  | throw => rfl
  | ub => rfl
  | ok l =>
  simp only [Outcome.bind, Manifold.shift, List.length_map, List.getElem?_map]
  congr 2
  funext b c
  by_cases hc : c.val < l.length
  · rw [if_pos hc, List.getElem?_eq_getElem hc]
    simp only [Option.map]
    split
    · rfl
    · exact closestPoint_shift _ _ _ _
  · rw [if_neg hc, List.getElem?_eq_none (by omega)]
    rfl

variable [Trig K]

omit [LinearOrder K] [IsStrictOrderedRing K] in
theorem Position.shift_local (p : Position K) (d v : Vec2 K) : (p.shift d).toLocalSpace.app (v + d) = p.toLocalSpace.app v := by
  ext <;> simp [Position.shift, Position.toLocalSpace, Position.toWorldSpace, Transform.app, Transform.inverse, Rotation.mulTranslation, Translation.mulRotation, Transform.mulTranslation,
    Translation.mul, Translation.inverse, Rotation.app] <;> ring

theorem Manifold.update_shift {sqrt : K → K} {pen : List (Vec2 K) → List (Vec2 K) → Vec2 K → Outcome (Vec2 K)} {d : Vec2 K}
    (hp : ∀ f s dir, pen (f.map (· + d)) (s.map (· + d)) dir = pen f s dir) (m : Manifold K) (s : Fin 2 → Side K) :
    m.update sqrt pen (fun i => (s i).shift d) = m.update sqrt pen s := by
  have hr : ∀ i, ((s i).shift d).position.toWorldSpace.r = (s i).position.toWorldSpace.r := fun _ => rfl
  have hl : ∀ i, ((s i).shift d).position.toLocalSpace.r = (s i).position.toLocalSpace.r := fun _ => rfl
  have hc : ∀ i, ((s i).shift d).position.centroid = (s i).position.centroid + d := fun i => Position.shift_centroid _ _
  have hv : ∀ i, ((s i).shift d).geom.transformed = (s i).geom.transformed.map (· + d) := fun _ => rfl
  have hb : ∀ i, ((s i).shift d).geom.box = (s i).geom.box.bind fun b => .ok (b.shift d) := fun _ => rfl
  unfold Manifold.update
  simp only [hr, hl, hc, hv, hb, sub_shift, hp, computeContactEdge_shift, EdgeIt.ends_shift]
  generalize (if m.nContacts = 0 then (s 1).position.centroid - (s 0).position.centroid else (s m.refIndex).position.toWorldSpace.r.app m.normal) = dir
  cases (s 0).geom.box with
  | throw => rfl
  | ub => rfl
  | ok b0 =>
  cases (s 1).geom.box with
  | throw => rfl
  | ub => rfl
  | ok b1 =>
  simp only [Outcome.bind, BoundingBox.shift_overlaps]
  cases b0.overlaps b1 with
  | false => rfl
  | true =>
  cases pen (s 0).geom.transformed (s 1).geom.transformed dir with
  | throw => rfl
  | ub => rfl
  | ok mtv =>
  dsimp only
  by_cases hm : mtv.normSquared < m.minPen * m.minPen
  · simp [hm]
  cases computeContactEdge sqrt (s 0).geom.transformed mtv with
  | throw => rfl
  | ub => rfl
  | ok e0 =>
  cases computeContactEdge sqrt (s 1).geom.transformed (-mtv) with
  | throw => rfl
  | ub => rfl
  | ok e1 =>
  dsimp only
  cases e0.ends (s 0).geom.transformed with
  | throw => rfl
  | ub => rfl
  | ok a0 =>
  cases e1.ends (s 1).geom.transformed with
  | throw => rfl
  | ub => rfl
  | ok a1 =>
  dsimp only
  rw [edgeUnitNormal_shift, edgeUnitNormal_shift]
  generalize (if Vec2.dot (edgeUnitNormal sqrt a1) (-mtv) < Vec2.dot (edgeUnitNormal sqrt a0) mtv then _ else _ : Manifold K) = m1
  rw [computeContacts_shift m1 (fun i => (s i).geom.transformed)]
  cases computeContacts m1 (fun i => (s i).geom.transformed) ![e0, e1] with
  | throw => rfl
  | ub => rfl
  | ok m2 =>
  simp only [Outcome.bind, Manifold.shift]
  congr 4
  funext i c
  by_cases h : c.val < m2.nContacts
  · simp only [if_pos h]
    exact Position.shift_local _ _ _
  · simp only [if_neg h]

theorem Contact.needsNewManifold_shift (e : Contact K) (verts : Fin 2 → List (Vec2 K)) (d : Vec2 K) :
    (e.reframe d).needsNewManifold (fun i => (verts i).map (· + d)) = e.needsNewManifold verts := by
  have hrel : ∀ c, (e.reframe d).relativePosition c = e.relativePosition c := Frame.shift_relative e.frame d
  have hn : (e.reframe d).frame.nContacts = e.frame.nContacts := rfl
  have hm : (e.reframe d).manifold = e.manifold := rfl
  have hno : (e.reframe d).frame.normal = e.frame.normal := rfl
  have ht : (e.reframe d).frame.tangent = e.frame.tangent := rfl
  have hco : ∀ (b c : Fin 2), c.val < e.frame.nContacts → (e.reframe d).frame.contacts b c = e.frame.contacts b c + d := fun b c h => if_pos h
  unfold Contact.needsNewManifold
  simp only [hrel, hn, hm, hno, ht, furthest_shift]
  by_cases h0 : e.frame.nContacts = 0
  · rw [if_pos h0, if_pos h0]
  rw [if_neg h0, if_neg h0]
  cases furthestVertexInDirection (verts e.manifold.incIndex) (-if e.manifold.incIndex = 1 then -e.frame.normal else e.frame.normal) with
  | throw => rfl
  | ub => rfl
  | ok v =>
    simp only [Outcome.bind]
    rw [hco _ 0 (by show 0 < _; omega)]
    by_cases h2 : e.frame.nContacts = 2
    · rw [hco _ 1 (by show 1 < _; omega)]
      simp only [ne_eq, add_left_inj]
    · simp only [if_neg h2, ne_eq, add_left_inj]

theorem Manifold.frame_moved (m : Manifold K) (p : Fin 2 → Position K) (d : Vec2 K) : (m.frame fun i => ((p i).shift d).toWorldSpace) = (m.frame fun i => (p i).toWorldSpace).shift d := by
  have e : ∀ q : Fin 2 → Position K, (fun i => (q i).toWorldSpace) = ![(q 0).toWorldSpace, (q 1).toWorldSpace] := fun q => by
    funext i; fin_cases i <;> rfl
  rw [e (fun i => (p i).shift d), e p]
  exact Manifold.frame_shift m (p 0) (p 1) d

theorem Contact.updateContacts_shift {sqrt : K → K} {pen : List (Vec2 K) → List (Vec2 K) → Vec2 K → Outcome (Vec2 K)} {d : Vec2 K}
    (hp : ∀ f s dir, pen (f.map (· + d)) (s.map (· + d)) dir = pen f s dir) (e : Contact K) (fr : Frame K) (s : Fin 2 → Side K) :
    ({ e with frame := fr } : Contact K).updateContacts sqrt pen (fun i => (s i).shift d) = (e.updateContacts sqrt pen s).bind fun e => .ok (e.reframe d) := by
  have hf : ∀ m : Manifold K, (m.frame fun i => ((s i).shift d).position.toWorldSpace) = (m.frame fun i => (s i).position.toWorldSpace).shift d := fun m =>
    Manifold.frame_moved m (fun i => (s i).position) d
  have hv : (fun i => ((s i).shift d).geom.transformed) = fun i => (s i).geom.transformed.map (· + d) := rfl
  unfold Contact.updateContacts
  simp only [hf, hv, Manifold.update_shift hp]
  have hn := Contact.needsNewManifold_shift ({ e with frame := e.manifold.frame fun i => (s i).position.toWorldSpace } : Contact K) (fun i => (s i).geom.transformed) d
  rw [show ({ e with frame := (e.manifold.frame fun i => (s i).position.toWorldSpace).shift d } : Contact K) =
    ({ e with frame := e.manifold.frame fun i => (s i).position.toWorldSpace } : Contact K).reframe d from rfl, hn]
  cases ({ e with frame := e.manifold.frame fun i => (s i).position.toWorldSpace } : Contact K).needsNewManifold fun i => (s i).geom.transformed with
  | throw => rfl
  | ub => rfl
  | ok b =>
    cases b with
    | false => rfl
    | true =>
      simp only [Outcome.bind, if_true]
      cases e.manifold.update sqrt pen s <;> rfl

theorem Contact.make_shift {sqrt : K → K} {pen : List (Vec2 K) → List (Vec2 K) → Vec2 K → Outcome (Vec2 K)} {d : Vec2 K}
    (hp : ∀ f s dir, pen (f.map (· + d)) (s.map (· + d)) dir = pen f s dir) (first second : Material K) (s : Fin 2 → Side K) :
    Contact.make sqrt pen first second (fun i => (s i).shift d) = (Contact.make sqrt pen first second s).bind fun e => .ok (e.reframe d) := by
  have hf : ∀ m : Manifold K, (m.frame fun i => ((s i).shift d).position.toWorldSpace) = (m.frame fun i => (s i).position.toWorldSpace).shift d := fun m =>
    Manifold.frame_moved m (fun i => (s i).position) d
  unfold Contact.make Manifold.make
  simp only [hf, Manifold.update_shift hp]
  cases Manifold.update sqrt pen (⟨fun _ _ => 0, 0, 0, (CombinableProperty.combine first.penetration second.penetration).value, 0⟩ : Manifold K) s <;> rfl

theorem Body.side_carried (b : Body K) (d u : Vec2 K) (a : Bool) (c : Nat) : ({ b.carried d u with asleep := a } : Body K).side c = (b.side c).map (·.shift d) := by
  show ((b.colliders.list.map (·.shift d))[c]?.map fun x => (⟨x.geom, b.position.shift d⟩ : Side K)) = _
  unfold Body.side
  rw [List.getElem?_map, Option.map_map, Option.map_map]
  rfl

theorem Contact.updateContacts_jacobians {sqrt : K → K} {pen : List (Vec2 K) → List (Vec2 K) → Vec2 K → Outcome (Vec2 K)} {e e1 : Contact K} {s : Fin 2 → Side K}
    (h : e.updateContacts sqrt pen s = .ok e1) : e1.Jn = e.Jn ∧ e1.Jf = e.Jf := by
  obtain ⟨b, -, h⟩ := Island.bind_ok_iff.1 h
  cases b with
  | false => cases Outcome.ok.inj h; exact ⟨rfl, rfl⟩
  | true =>
    obtain ⟨m, -, h⟩ := Island.bind_ok_iff.1 h
    cases Outcome.ok.inj h; exact ⟨rfl, rfl⟩

theorem Contact.make_jacobians {sqrt : K → K} {pen : List (Vec2 K) → List (Vec2 K) → Vec2 K → Outcome (Vec2 K)} {first second : Material K} {e : Contact K} {s : Fin 2 → Side K}
    (h : Contact.make sqrt pen first second s = .ok e) : e.Jn = Mat.zero ∧ e.Jf = fun _ => Mat.zero := by
  obtain ⟨m, -, h⟩ := Island.bind_ok_iff.1 h
  cases Outcome.ok.inj h; exact ⟨rfl, rfl⟩

theorem oppositeLinear_zero {n : Nat} : OppositeLinear (Mat.zero : Mat K n 6) := fun r => by
  simp [Mat.zero, Mat.get]

theorem Readied.moves {sqrt : K → K} {pen : List (Vec2 K) → List (Vec2 K) → Vec2 K → Outcome (Vec2 K)} (hp : Relative pen) {d u : Vec2 K} {group : Finset Nat} {B B' : Nat → Body K}
    (hB : ∀ b ∈ group, B' b = { (B b).carried d u with asleep := (B' b).asleep }) {o : Option ((Σ k : Kind K, k.State) × Σ k : Kind K, k.State)} {x y : Σ k : Kind K, k.State}
    (h : Readied sqrt pen d u group B B' o x y) (ho : ∀ z, o = some z → LinkMoves d u z.1 z.2) : LinkMoves d u x y := by
  have hs : ∀ {bodies cols : Fin 2 → Nat} {sides sides' : Fin 2 → Side K}, (∀ i, bodies i ∈ group) → (∀ i, (B (bodies i)).side (cols i) = some (sides i)) →
      (∀ i, (B' (bodies i)).side (cols i) = some (sides' i)) → sides' = fun i => (sides i).shift d := by
    intro bodies cols sides sides' hg h h'
    funext i
    have := h' i
    rw [hB _ (hg i), Body.side_carried, h i] at this
    exact (Option.some.inj this).symm
  cases h with
  | kept x y => exact ho _ rfl
  | given o h => exact h
  | made o bodies cols inGroup side side' first second h h' =>
    rw [hs inGroup side side', Contact.make_shift (hp d), h] at h'
    cases Outcome.ok.inj h'
    obtain ⟨j1, j2⟩ := Contact.make_jacobians h
    refine ⟨.contact _ _, Or.inr ⟨trivial, ?_, fun c => ?_⟩⟩
    · rw [j1]; exact oppositeLinear_zero
    · rw [j2]; exact oppositeLinear_zero
  | updated bodies cols inGroup side side' h h' =>
    obtain ⟨hc, hf⟩ := ho _ rfl
    dsimp only at hc hf
    cases hc with
    | contact e fr =>
      rw [hs inGroup side side', Contact.updateContacts_shift (hp d), h] at h'
      cases Outcome.ok.inj h'
      obtain ⟨j1, j2⟩ := Contact.updateContacts_jacobians h
      refine ⟨.contact _ _, hf.imp_right fun k => ⟨trivial, ?_, fun c => ?_⟩⟩
      · rw [j1]; exact k.2.1
      · rw [j2]; exact k.2.2 c

end
end Simu
