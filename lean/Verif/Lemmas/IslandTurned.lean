import Verif.Lemmas.Island
/-
The order of the two ends of a constraint does not matter to the construction and the solution of islands.
-/
namespace Simu.Island
variable {P V S S' : Type*}

/-- Two values, exchanged or not. -/
def turnPair {α : Type*} (b : Bool) (p : α × α) : α × α := if b then p.swap else p

/-- Two networks that only differ by the order of the ends of some constraints. -/
structure Net.Turned (turn : Link → Bool) (f : S → S') (N : Net P V S) (N' : Net P V S') : Prop where
  ends : ∀ l, N'.ends l = turnPair (turn l) (N.ends l)
  joints : N'.joints = N.joints
  contacts : N'.contacts = N.contacts
  structuralIn : N'.structuralIn = N.structuralIn
  isRest : N'.isRest = N.isRest
  advance : N'.advance = N.advance
  isActive : ∀ l s p, N'.isActive l (f s) (turnPair (turn l) p).1 (turnPair (turn l) p).2 = (f (N.isActive l s p.1 p.2).1, (N.isActive l s p.1 p.2).2)
  act : ∀ ph l i s ps vs, N'.act ph l (turnPair (turn l) i).1 (turnPair (turn l) i).2 (f s) ps vs = (N.act ph l i.1 i.2 s ps vs).bind fun r => .ok (f r.1, r.2)

/-- The state with the places of some constraints exchanged. -/
def St.turned (turn : Link → Bool) (f : S → S') (st : St P V S) : St P V S' where
  body := st.body
  proxies l := (st.proxies l).map (turnPair (turn l))
  s := f st.s
  evals := st.evals
  moved := st.moved

variable {turn : Link → Bool} {f : S → S'} {N : Net P V S} {N' : Net P V S'}

theorem turned_setBody (st : St P V S) (b : Nat) (x : BodyState P V) : (st.turned turn f).setBody b x = (st.setBody b x).turned turn f := rfl

theorem turned_addBody (st : St P V S) (isl : Isl P V) (b : Nat) :
    addBody (st.turned turn f) isl b = ((addBody st isl b).1.turned turn f, (addBody st isl b).2) := by
  unfold addBody
  by_cases h : (st.body b).index = none
  · rw [if_pos (show ((st.turned turn f).body b).index = none from h), if_pos h]; rfl
  · rw [if_neg (show ¬ ((st.turned turn f).body b).index = none from h), if_neg h]

theorem turned_update (st : St P V S) (l : Link) (p : Option (Nat × Nat)) :
    ({ st.turned turn f with proxies := Function.update (st.turned turn f).proxies l (p.map (turnPair (turn l))) } : St P V S') =
      St.turned turn f { st with proxies := Function.update st.proxies l p } := by
  unfold St.turned
  simp only [St.mk.injEq, true_and, and_true]
  funext l'
  by_cases h : l' = l
  · subst h; simp
  · simp [h]

theorem turned_startSolve (h : N.Turned turn f N') (st : St P V S) (l : Link) :
    startSolve N' (st.turned turn f) l = (startSolve N st l).bind fun st => .ok (st.turned turn f) := by
  unfold startSolve
  rw [h.ends l]
  have hu := turned_update (turn := turn) (f := f) st l
  show (match (st.body (turnPair (turn l) (N.ends l)).1).index, (st.body (turnPair (turn l) (N.ends l)).2).index with
    | some i0, some i1 => Outcome.ok { st.turned turn f with proxies := Function.update (st.turned turn f).proxies l (some (i0, i1)) }
    | _, _ => .throw) = _
  cases ht : turn l with
  | false =>
    simp only [turnPair, Bool.false_eq_true, if_false]
    cases h0 : (st.body (N.ends l).1).index <;> cases h1 : (st.body (N.ends l).2).index <;> try rfl
    rename_i i0 i1
    simp only [Outcome.bind_ok]
    rw [← hu (some (i0, i1)), ht]; rfl
  | true =>
    simp only [turnPair, if_true, Prod.swap]
    cases h0 : (st.body (N.ends l).1).index <;> cases h1 : (st.body (N.ends l).2).index <;> try rfl
    rename_i i0 i1
    simp only [Outcome.bind_ok]
    rw [← hu (some (i0, i1)), ht]; rfl

/-- What `addConstraint` does once the bodies are in the island: `y` is the result of adding `b`, the only body that may have been missing. -/
def settleConstraint (N : Net P V S) (l : Link) (b : Nat) (index : Option Nat) (y : St P V S × Isl P V × Bool) : Outcome (St P V S × Isl P V) :=
  (startSolve N y.1 l).bind fun st =>
    match st.proxies l with
    | none => .throw
    | some i =>
      let answer := N.isActive l st.s (y.2.1.ps i.1) (y.2.1.ps i.2)
      let st := { st with s := answer.1, evals := st.evals ++ [(l, answer.2)] }
      if answer.2 then .ok (st, y.2.1)
      else
        let z := if y.2.2 then dropBody st y.2.1 b index else (st, y.2.1)
        .ok ({ z.1 with proxies := Function.update z.1.proxies l none }, z.2.pop l)

theorem addBody_known {st : St P V S} {isl : Isl P V} {b : Nat} (h : (st.body b).index ≠ none) : addBody st isl b = (st, isl, false) := by
  unfold addBody; rw [if_neg h]

theorem addBody_new {st : St P V S} {isl : Isl P V} {b : Nat} (h : (st.body b).index = none) : addBody st isl b =
    (st.setBody b { st.body b with index := some isl.bodies.length },
     { isl with
       bodies := isl.bodies ++ [b]
       awake := isl.awake || !(st.body b).asleep
       ps := Function.update isl.ps isl.bodies.length (st.body b).pos
       vs := Function.update isl.vs isl.bodies.length (st.body b).vel },
     true) := by
  unfold addBody; rw [if_pos h]

theorem addBody_other {st : St P V S} {isl : Isl P V} {b o : Nat} (h : (st.body o).index ≠ none) : ((addBody st isl b).1.body o).index ≠ none := by
  unfold addBody
  by_cases hb : (st.body b).index = none
  · rw [if_pos hb]
    have : o ≠ b := by rintro rfl; exact h hb
    rw [setBody_ne _ _ this]; exact h
  · rw [if_neg hb]; exact h

theorem addConstraint_one {st : St P V S} {isl : Isl P V} {l : Link} {b o : Nat} (he : N.ends l = (b, o) ∨ N.ends l = (o, b)) (ho : (st.body o).index ≠ none) :
    addConstraint N st isl l = if (st.proxies l).isSome then .ok (st, isl) else settleConstraint N l b (st.body b).index (addBody st (isl.push l) b) := by
  unfold addConstraint
  by_cases hp : (st.proxies l).isSome = true
  · rw [if_pos hp, if_pos hp]
  rw [if_neg hp, if_neg hp]
  unfold settleConstraint
  rcases he with he | he
  · rw [he]
    dsimp only
    rw [addBody_known (addBody_other ho)]
    dsimp only
    congr 1
    funext st1
    cases st1.proxies l with
    | none => rfl
    | some i => rfl
  · rw [he]
    dsimp only
    rw [addBody_known ho]
    dsimp only
    congr 1
    funext st1
    cases st1.proxies l with
    | none => rfl
    | some i => rfl

theorem turned_settle (h : N.Turned turn f N') (l : Link) (b : Nat) (index : Option Nat) (y : St P V S × Isl P V × Bool) :
    settleConstraint N' l b index (y.1.turned turn f, y.2) = (settleConstraint N l b index y).bind fun x => .ok (x.1.turned turn f, x.2) := by
  unfold settleConstraint
  rw [turned_startSolve h]
  cases hs : startSolve N y.1 l with
  | throw => rfl
  | ub => rfl
  | ok st =>
    simp only [Outcome.bind_ok]
    show (match (st.proxies l).map (turnPair (turn l)) with
      | none => Outcome.throw
      | some i => _) = _
    cases hi : st.proxies l with
    | none => rfl
    | some i =>
      simp only [Option.map_some]
      have ha := h.isActive l st.s (y.2.1.ps i.1, y.2.1.ps i.2)
      have hb : (y.2.1.ps (turnPair (turn l) i).1, y.2.1.ps (turnPair (turn l) i).2) = turnPair (turn l) (y.2.1.ps i.1, y.2.1.ps i.2) := by
        cases turn l <;> rfl
      have hb1 := congrArg Prod.fst hb
      have hb2 := congrArg Prod.snd hb
      dsimp only at hb1 hb2 ha
      rw [hb1, hb2, show (st.turned turn f).s = f st.s from rfl, ha]
      set an := N.isActive l st.s (y.2.1.ps i.1) (y.2.1.ps i.2)
      dsimp only
      by_cases hA : an.2 = true
      · rw [if_pos hA, if_pos hA]; rfl
      · rw [if_neg hA, if_neg hA]
        simp only [Outcome.bind_ok]
        cases hd : y.2.2 with
        | false =>
          simp only [Bool.false_eq_true, if_false]
          congr 1
          refine Prod.ext ?_ rfl
          exact turned_update (turn := turn) (f := f) { st with s := an.1, evals := st.evals ++ [(l, an.2)] } l none
        | true =>
          simp only [if_true]
          congr 1
          refine Prod.ext ?_ rfl
          exact turned_update (turn := turn) (f := f) (dropBody { st with s := an.1, evals := st.evals ++ [(l, an.2)] } y.2.1 b index).1 l none

/-- The bodies of the island have an index. -/
def Entered (st : St P V S) (isl : Isl P V) : Prop := ∀ b ∈ isl.bodies, (st.body b).index ≠ none

theorem addBody_entered {st : St P V S} {isl : Isl P V} (b : Nat) (h : Entered st isl) : Entered (addBody st isl b).1 (addBody st isl b).2.1 := by
  intro x hx
  unfold addBody at hx ⊢
  by_cases hb : (st.body b).index = none
  · rw [if_pos hb] at hx ⊢
    dsimp only at hx ⊢
    by_cases hxb : x = b
    · subst hxb; simp
    · rw [setBody_ne _ _ hxb]
      rcases List.mem_append.1 hx with hx | hx
      · exact h x hx
      · exact absurd (List.mem_singleton.1 hx) hxb
  · rw [if_neg hb] at hx ⊢
    exact h x hx

theorem push_bodies (isl : Isl P V) (l : Link) : (isl.push l).bodies = isl.bodies := by cases l <;> rfl

theorem pop_bodies (isl : Isl P V) (l : Link) : (isl.pop l).bodies = isl.bodies := by cases l <;> rfl

theorem startSolve_body {st st' : St P V S} {l : Link} (h : startSolve N st l = .ok st') : st'.body = st.body := by
  unfold startSolve at h
  split at h
  · cases Outcome.ok.inj h; rfl
  · cases h

theorem addConstraint_entered {st : St P V S} {isl : Isl P V} {l : Link} {b o : Nat} {x : St P V S × Isl P V} (he : N.ends l = (b, o) ∨ N.ends l = (o, b)) (ho : o ∈ isl.bodies)
    (h : Entered st isl) (hx : addConstraint N st isl l = .ok x) : Entered x.1 x.2 ∧ ∀ c ∈ isl.bodies, c ∈ x.2.bodies := by
  rw [addConstraint_one he (h o ho)] at hx
  by_cases hp : (st.proxies l).isSome = true
  · rw [if_pos hp] at hx; cases Outcome.ok.inj hx; exact ⟨h, fun c hc => hc⟩
  rw [if_neg hp] at hx
  unfold settleConstraint at hx
  obtain ⟨st1, h1, h2⟩ := bind_ok_iff.1 hx
  have hb1 := startSolve_body h1
  cases hi : st1.proxies l with
  | none => rw [hi] at h2; cases h2
  | some i =>
  rw [hi] at h2
  dsimp only at h2
  have hen : Entered st (isl.push l) := by unfold Entered; rw [push_bodies]; exact h
  have hy := addBody_entered (isl := isl.push l) b hen
  have hsub : ∀ c ∈ isl.bodies, c ∈ (addBody st (isl.push l) b).2.1.bodies := by
    intro c hc
    unfold addBody
    by_cases hb : (st.body b).index = none
    · rw [if_pos hb]
      show c ∈ (isl.push l).bodies ++ [b]
      rw [push_bodies]; exact List.mem_append_left _ hc
    · rw [if_neg hb]
      show c ∈ (isl.push l).bodies
      rw [push_bodies]; exact hc
  by_cases hA : (N.isActive l st1.s ((addBody st (isl.push l) b).2.1.ps i.1) ((addBody st (isl.push l) b).2.1.ps i.2)).2 = true
  · rw [if_pos hA] at h2
    cases Outcome.ok.inj h2
    refine ⟨?_, hsub⟩
    intro c hc
    show (st1.body c).index ≠ none
    rw [hb1]; exact hy c hc
  · rw [if_neg hA] at h2
    by_cases hb : (st.body b).index = none
    · have hadd := addBody_new (isl := isl.push l) hb
      rw [hadd] at h2 hb1
      simp only [if_true] at h2
      cases Outcome.ok.inj h2
      have hbs : ∀ (s : St P V S) (i : Isl P V), i.bodies = (isl.push l).bodies ++ [b] → ((dropBody s i b (st.body b).index).2.pop l).bodies = isl.bodies := by
        intro s i hi
        rw [pop_bodies]
        show i.bodies.dropLast = _
        rw [hi, List.dropLast_concat, push_bodies]
      refine ⟨?_, fun c hc => by dsimp only; rw [hbs _ _ rfl]; exact hc⟩
      intro c hc
      have hc' : c ∈ isl.bodies := by
        dsimp only at hc
        rw [hbs _ _ rfl] at hc; exact hc
      have hcb : c ≠ b := by rintro rfl; exact h c hc' hb
      show ((St.setBody _ b _).body c).index ≠ none
      rw [setBody_ne _ _ hcb]
      show (st1.body c).index ≠ none
      rw [hb1, setBody_ne _ _ hcb]
      exact h c hc'
    · have hadd := addBody_known (isl := isl.push l) hb
      rw [hadd] at h2 hb1
      simp only [Bool.false_eq_true, if_false] at h2
      cases Outcome.ok.inj h2
      refine ⟨?_, fun c hc => by dsimp only; rw [pop_bodies, push_bodies]; exact hc⟩
      intro c hc
      dsimp only at hc
      rw [pop_bodies, push_bodies] at hc
      show (st1.body c).index ≠ none
      rw [hb1]; exact h c hc

theorem turned_addConstraint (h : N.Turned turn f N') {st : St P V S} {isl : Isl P V} {l : Link} {o : Nat} (ho : (st.body o).index ≠ none) (hm : o = (N.ends l).1 ∨ o = (N.ends l).2) :
    addConstraint N' (st.turned turn f) isl l = (addConstraint N st isl l).bind fun x => .ok (x.1.turned turn f, x.2) := by
  obtain ⟨b, hb⟩ : ∃ b, N.ends l = (b, o) ∨ N.ends l = (o, b) := by
    rcases hm with rfl | rfl
    · exact ⟨_, Or.inr rfl⟩
    · exact ⟨_, Or.inl rfl⟩
  have hb' : N'.ends l = (b, o) ∨ N'.ends l = (o, b) := by
    rw [h.ends]
    rcases hb with hb | hb <;> rw [hb] <;> cases turn l <;> simp [turnPair]
  rw [addConstraint_one hb ho, addConstraint_one hb' (show ((st.turned turn f).body o).index ≠ none from ho), turned_addBody, turned_settle h]
  show (if ((st.proxies l).map (turnPair (turn l))).isSome = true then _ else _) = _
  rw [Option.isSome_map]
  by_cases hp : (st.proxies l).isSome = true
  · rw [if_pos hp, if_pos hp]; rfl
  · rw [if_neg hp, if_neg hp]; rfl

/-- The constraints a body is in have it as one of their ends. -/
def EndsIn (N : Net P V S) : Prop := ∀ b, ∀ l ∈ linksOf N b, b = (N.ends l).1 ∨ b = (N.ends l).2

theorem turned_addConstraints (h : N.Turned turn f N') {o : Nat} (ls : List Link) (hl : ∀ l ∈ ls, o = (N.ends l).1 ∨ o = (N.ends l).2) {x : St P V S × Isl P V} (ho : o ∈ x.2.bodies) (hx : Entered x.1 x.2) :
    addConstraints N' ls (x.1.turned turn f, x.2) = ((addConstraints N ls x).bind fun x => .ok (x.1.turned turn f, x.2)) ∧
      ∀ y, addConstraints N ls x = .ok y → Entered y.1 y.2 := by
  induction ls generalizing x with
  | nil => exact ⟨rfl, fun y hy => by cases Outcome.ok.inj hy; exact hx⟩
  | cons l ls ih =>
    unfold addConstraints
    dsimp only
    rw [turned_addConstraint h (hx o ho) (hl l (by simp))]
    cases ha : addConstraint N x.1 x.2 l with
    | throw => exact ⟨rfl, fun y hy => by cases hy⟩
    | ub => exact ⟨rfl, fun y hy => by cases hy⟩
    | ok z =>
      simp only [Outcome.bind_ok]
      obtain ⟨b, hb⟩ : ∃ b, N.ends l = (b, o) ∨ N.ends l = (o, b) := by
        rcases hl l (by simp) with hm | hm
        · exact ⟨(N.ends l).2, Or.inr (by rw [hm])⟩
        · exact ⟨(N.ends l).1, Or.inl (by rw [hm])⟩
      obtain ⟨e1, e2⟩ := addConstraint_entered hb ho hx ha
      exact ih (fun l' hl' => hl l' (List.mem_cons_of_mem _ hl')) (e2 o ho) e1

theorem turned_structural (h : N.Turned turn f N') (st : St P V S) (b : Nat) : interactsAsStructural N' (st.turned turn f) b = interactsAsStructural N st b := by
  unfold interactsAsStructural
  rw [h.isRest, h.joints, h.contacts, h.structuralIn]; rfl

theorem turned_linksOf (h : N.Turned turn f N') (b : Nat) : linksOf N' b = linksOf N b := by
  unfold linksOf; rw [h.joints, h.contacts]

theorem turned_initLoop (h : N.Turned turn f N') (hE : EndsIn N) (fuel current : Nat) {x : St P V S × Isl P V} (hx : Entered x.1 x.2) :
    initLoop N' fuel current (x.1.turned turn f, x.2) = (initLoop N fuel current x).map fun r => r.bind fun y => .ok (y.1.turned turn f, y.2) := by
  induction fuel generalizing current x with
  | zero => rfl
  | succ fuel ih =>
    rw [initLoop_succ, initLoop_succ]
    dsimp only
    cases hr : x.2.bodies[current]? with
    | none => rfl
    | some root =>
      dsimp only
      have hroot := List.mem_of_getElem? hr
      have hstep : initStep N' root (x.1.turned turn f, x.2) = ((initStep N root x).bind fun y => .ok (y.1.turned turn f, y.2)) ∧
          ∀ y, initStep N root x = .ok y → Entered y.1 y.2 := by
        unfold initStep
        dsimp only
        rw [turned_structural h, turned_linksOf h]
        by_cases hs : interactsAsStructural N x.1 root = true
        · rw [if_pos hs, if_pos hs]
          exact ⟨rfl, fun y hy => by cases Outcome.ok.inj hy; exact hx⟩
        · rw [if_neg hs, if_neg hs]
          exact turned_addConstraints h _ (hE root) hroot hx
      obtain ⟨h1, h2⟩ := hstep
      rw [h1]
      cases hi : initStep N root x with
      | throw => rfl
      | ub => rfl
      | ok y =>
        simp only [Outcome.bind_ok]
        exact ih (current + 1) (h2 y hi)

theorem turned_init (h : N.Turned turn f N') (hE : EndsIn N) (fuel : Nat) {st : St P V S} {isl : Isl P V} (hz : isl.bodies = []) (root : Nat) :
    init N' fuel (st.turned turn f) isl root = (init N fuel st isl root).map fun r => r.bind fun y => .ok (y.1.turned turn f, y.2) := by
  unfold init
  rw [turned_addBody]
  exact turned_initLoop h hE fuel 0 (x := ((addBody st isl root).1, (addBody st isl root).2.1)) (addBody_entered root (by intro b hb; rw [hz] at hb; cases hb))

theorem turned_wakeAll (bs : List Nat) (st : St P V S) : wakeAll bs (st.turned turn f) = (wakeAll bs st).turned turn f := rfl

theorem turned_copyBodies (st : St P V S) (bs : List Nat) (isl : Isl P V) : copyBodies (st.turned turn f) bs isl = copyBodies st bs isl := by
  induction bs generalizing isl with
  | nil => rfl
  | cons b bs ih =>
    unfold copyBodies
    rw [show (st.turned turn f).body b = st.body b from rfl]
    cases (st.body b).index with
    | none => rfl
    | some i => exact ih _

theorem turned_startAll (h : N.Turned turn f N') (ls : List Link) (st : St P V S) :
    startAll N' ls (st.turned turn f) = (startAll N ls st).bind fun st => .ok (st.turned turn f) := by
  induction ls generalizing st with
  | nil => rfl
  | cons l ls ih =>
    unfold startAll
    rw [turned_startSolve h]
    cases startSolve N st l with
    | throw => rfl
    | ub => rfl
    | ok st => exact ih st

theorem turned_actAll (h : N.Turned turn f N') (ph : Phase) (ls : List Link) (x : St P V S × Isl P V) :
    actAll N' ph ls (x.1.turned turn f, x.2) = (actAll N ph ls x).bind fun x => .ok (x.1.turned turn f, x.2) := by
  induction ls generalizing x with
  | nil => rfl
  | cons l ls ih =>
    obtain ⟨st, isl⟩ := x
    unfold actAll
    show (match (st.proxies l).map (turnPair (turn l)) with
      | none => Outcome.throw
      | some (i0, i1) => _) = _
    cases hp : st.proxies l with
    | none => rfl
    | some i =>
      simp only [Option.map_some]
      rw [show (st.turned turn f).s = f st.s from rfl, h.act]
      cases N.act ph l i.1 i.2 st.s isl.ps isl.vs with
      | throw => rfl
      | ub => rfl
      | ok r => exact ih ({ st with s := r.1 }, { isl with ps := r.2.1, vs := r.2.2 })

theorem turned_actRounds (h : N.Turned turn f N') (ph : Phase) (ls : List Link) (n : Nat) (x : St P V S × Isl P V) :
    actRounds N' ph ls n (x.1.turned turn f, x.2) = (actRounds N ph ls n x).bind fun x => .ok (x.1.turned turn f, x.2) := by
  induction n generalizing x with
  | zero => rfl
  | succ n ih =>
    unfold actRounds
    rw [turned_actAll h]
    cases actAll N ph ls x with
    | throw => rfl
    | ub => rfl
    | ok y => exact ih y

theorem turned_integrate (h : N.Turned turn f N') (x : St P V S × Isl P V) :
    integrate N' (x.1.turned turn f, x.2) = ((integrate N x).1.turned turn f, (integrate N x).2) := by
  unfold integrate; rw [h.advance]; rfl

theorem turned_writeBack (isl : Isl P V) (bs : List Nat) (st : St P V S) : writeBack isl bs (st.turned turn f) = (writeBack isl bs st).bind fun st => .ok (st.turned turn f) := by
  induction bs generalizing st with
  | nil => rfl
  | cons b bs ih =>
    unfold writeBack
    rw [show (st.turned turn f).body b = st.body b from rfl]
    cases (st.body b).index with
    | none => rfl
    | some i => exact ih (st.setBody b { st.body b with pos := isl.ps i, vel := isl.vs i, index := none })

theorem turned_endSolve (isl : Isl P V) (st : St P V S) : endSolve (st.turned turn f) isl = (endSolve st isl).bind fun st => .ok (st.turned turn f) := by
  unfold endSolve
  rw [turned_writeBack]
  cases writeBack isl isl.bodies st with
  | throw => rfl
  | ub => rfl
  | ok st =>
    simp only [Outcome.bind_ok]
    congr 1
    unfold St.turned
    simp only [St.mk.injEq, true_and, and_true]
    funext l
    by_cases hl : l ∈ isl.links
    · rw [if_pos hl, if_pos hl]; rfl
    · rw [if_neg hl, if_neg hl]

theorem turned_solveIsland (h : N.Turned turn f N') (cfg : Settings) (st : St P V S) (isl : Isl P V) :
    solveIsland N' cfg (st.turned turn f) isl = (solveIsland N cfg st isl).bind fun x => .ok (x.1.turned turn f, x.2) := by
  unfold solveIsland
  dsimp only
  rw [show (if isl.awake = true then wakeAll isl.bodies (st.turned turn f) else st.turned turn f) = (if isl.awake = true then wakeAll isl.bodies st else st).turned turn f by
    by_cases ha : isl.awake = true
    · rw [if_pos ha, if_pos ha, turned_wakeAll]
    · rw [if_neg ha, if_neg ha]]
  set st1 := (if isl.awake = true then wakeAll isl.bodies st else st)
  rw [turned_copyBodies]
  cases copyBodies st1 isl.bodies isl with
  | throw => rfl
  | ub => rfl
  | ok isl =>
  simp only [Outcome.bind_ok]
  rw [turned_startAll h]
  cases startAll N isl.links st1 with
  | throw => rfl
  | ub => rfl
  | ok st2 =>
  simp only [Outcome.bind_ok]
  have fin : ∀ x : St P V S × Isl P V, ((endSolve (x.1.turned turn f) x.2).bind fun st => Outcome.ok (st, x.2)) = ((endSolve x.1 x.2).bind fun st => Outcome.ok (st, x.2)).bind fun x => .ok (x.1.turned turn f, x.2) := by
    intro x
    rw [turned_endSolve]
    cases endSolve x.1 x.2 <;> rfl
  by_cases hl : isl.links ≠ []
  · rw [if_pos hl, if_pos hl, show (st2.turned turn f, isl) = ((st2, isl).1.turned turn f, (st2, isl).2) from rfl, turned_actAll h]
    cases actAll N .initSolve isl.links (st2, isl) with
    | throw => rfl
    | ub => rfl
    | ok x =>
    simp only [Outcome.bind_ok]
    have hw : (if cfg.enableWarmstarting = true then actAll N' .warmstart isl.links (x.1.turned turn f, x.2) else .ok (x.1.turned turn f, x.2)) =
        (if cfg.enableWarmstarting = true then actAll N .warmstart isl.links x else .ok x).bind fun x => .ok (x.1.turned turn f, x.2) := by
      by_cases hc : cfg.enableWarmstarting = true
      · rw [if_pos hc, if_pos hc, turned_actAll h]
      · rw [if_neg hc, if_neg hc]; rfl
    rw [hw]
    cases (if cfg.enableWarmstarting = true then actAll N .warmstart isl.links x else .ok x) with
    | throw => rfl
    | ub => rfl
    | ok y =>
    simp only [Outcome.bind_ok]
    rw [turned_actRounds h]
    cases actRounds N .solveVelocities isl.links cfg.nVelocityIterations y with
    | throw => rfl
    | ub => rfl
    | ok z =>
    simp only [Outcome.bind_ok]
    rw [turned_integrate h, turned_actRounds h]
    cases actRounds N .solvePositions isl.links cfg.nPositionIterations (integrate N z) with
    | throw => rfl
    | ub => rfl
    | ok w => exact fin w
  · rw [if_neg hl, if_neg hl, show (st2.turned turn f, isl) = ((st2, isl).1.turned turn f, (st2, isl).2) from rfl, turned_integrate h]
    exact fin (integrate N (st2, isl))

theorem turned_solveLoop (h : N.Turned turn f N') (hE : EndsIn N) (cfg : Settings) (fuel : Nat) (todo : List Nat) (st : St P V S) {isl : Isl P V} (hz : isl.bodies = []) (done : List Record) :
    solveLoop N' cfg fuel todo (st.turned turn f) isl done = (solveLoop N cfg fuel todo st isl done).map fun r => r.bind fun y => .ok (y.1.turned turn f, y.2) := by
  induction fuel generalizing todo st isl done with
  | zero => rfl
  | succ fuel ih =>
    unfold solveLoop
    cases todo.getLast? with
    | none => rfl
    | some root =>
      dsimp only
      rw [turned_init h hE (fuel + 1) hz root]
      cases init N (fuel + 1) st isl root with
      | none => rfl
      | some r =>
        cases r with
        | throw => rfl
        | ub => rfl
        | ok x =>
          simp only [Option.map_some, Outcome.bind_ok]
          rw [turned_solveIsland h]
          cases solveIsland N cfg x.1 x.2 with
          | throw => rfl
          | ub => rfl
          | ok y => exact ih _ y.1 (isl := y.2.clear) rfl _

/-- The order of the ends of the constraints changes nothing but the places of their proxies. -/
theorem turned_solveIslands (h : N.Turned turn f N') (hE : EndsIn N) (cfg : Settings) (fuel : Nat) (p : P) (v : V) (bodies : List Nat) (st : St P V S) :
    solveIslands N' cfg fuel p v bodies (st.turned turn f) = (solveIslands N cfg fuel p v bodies st).map fun r => r.bind fun y => .ok (y.1.turned turn f, y.2) :=
  turned_solveLoop h hE cfg fuel bodies st rfl []

end Simu.Island
