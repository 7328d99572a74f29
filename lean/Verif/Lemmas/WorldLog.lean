import Verif.Lemmas.WorldReach
/-
What the log of a world says about its objects.
-/
namespace Simu.World
open World

/-- The object belongs to the world. -/
def Alive (w : World) : Obj → Prop
  | .body b => b ∈ w.bodies
  | .joint n => n ∈ w.joints
  | .contact n => n ∈ w.contacts
  | .force n => n ∈ w.forces.map (·.1)

/-- The address of an object. -/
def Obj.id : Obj → Nat
  | .body n => n
  | .joint n => n
  | .contact n => n
  | .force n => n

instance (w : World) (o : Obj) : Decidable (Alive w o) := by cases o <;> unfold Alive <;> infer_instance

/-- The log agrees with the objects of the world. -/
structure LogInv (w : World) : Prop where
  forces_nodup : (w.forces.map (·.1)).Nodup
  fresh : ∀ o, w.next ≤ o.id → w.log.count (.constructed o) = 0 ∧ ¬Alive w o
  made : ∀ o, w.log.count (.constructed o) ≤ 1
  alive : ∀ o, Alive w o → w.log.count (.constructed o) = 1 ∧ w.log.count (.freed o) = 0 ∧ w.log.count (.notified o) = 0
  gone : ∀ o, ¬Alive w o → w.log.count (.freed o) = w.log.count (.constructed o) ∧ w.log.count (.notified o) ≤ w.log.count (.freed o)

theorem count_ev {f : Nat → Event} (hf : Function.Injective f) {l : List Nat} (hl : l.Nodup) (n : Nat) : (l.map f).count (f n) = if n ∈ l then 1 else 0 := by
  rw [List.count_map_of_injective l f hf]
  split_ifs with h
  · exact List.count_eq_one_of_mem hl h
  · exact List.count_eq_zero.2 h

theorem count_ev_ne {f : Nat → Event} {e : Event} (h : ∀ n, f n ≠ e) (l : List Nat) : (l.map f).count e = 0 := by
  rw [List.count_eq_zero, List.mem_map]
  rintro ⟨n, _, hn⟩
  exact h n hn

/-- The logs that an operation adds, by what happens to each object. -/
structure Segment (w : World) (s : List Event) (w' : World) : Prop where
  log : w'.log = w.log ++ s
  next : w.next ≤ w'.next
  forces_nodup : (w'.forces.map (·.1)).Nodup
  fresh : ∀ o, w'.next ≤ o.id → ¬Alive w' o
  born : ∀ o, s.count (.constructed o) = if Alive w' o ∧ ¬Alive w o then 1 else 0
  born_new : ∀ o, Alive w' o → ¬Alive w o → w.next ≤ o.id
  died : ∀ o, s.count (.freed o) = if Alive w o ∧ ¬Alive w' o then 1 else 0
  told : ∀ o, s.count (.notified o) ≤ s.count (.freed o)

theorem Segment.logInv {w w' : World} {s : List Event} (h : LogInv w) (S : Segment w s w') : LogInv w' where
  forces_nodup := S.forces_nodup
  fresh o ho := by
    refine ⟨?_, S.fresh o ho⟩
    rw [S.log, List.count_append, (h.fresh o (S.next.trans ho)).1, S.born, if_neg (fun hh => S.fresh o ho hh.1)]
  made o := by
    rw [S.log, List.count_append, S.born]
    split_ifs with hc
    · rw [(h.fresh o (S.born_new o hc.1 hc.2)).1]
    · exact h.made o
  alive o ho := by
    rw [S.log]
    simp only [List.count_append, S.born, S.died]
    have ht := S.told o
    rw [S.died, if_neg (fun hh => hh.2 ho)] at ht
    by_cases hw : Alive w o
    · obtain ⟨a1, a2, a3⟩ := h.alive o hw
      rw [if_neg (fun hh => hh.2 hw), if_neg (fun hh => hh.2 ho)]
      omega
    · have hf := S.born_new o ho hw
      obtain ⟨a1, a2⟩ := h.gone o hw
      rw [if_pos ⟨ho, hw⟩, if_neg (fun hh => hw hh.1), (h.fresh o hf).1]
      rw [(h.fresh o hf).1] at a1
      omega
  gone o ho := by
    rw [S.log]
    simp only [List.count_append]
    have ht := S.told o
    have hb := S.born o
    have hd := S.died o
    rw [if_neg (fun hh => ho hh.1)] at hb
    by_cases hw : Alive w o
    · obtain ⟨a1, a2, a3⟩ := h.alive o hw
      rw [if_pos ⟨hw, ho⟩] at hd
      omega
    · obtain ⟨a1, a2⟩ := h.gone o hw
      rw [if_neg (fun hh => hw hh.1)] at hd
      omega

/-- Operations that neither make nor destroy. -/
theorem Segment.same {w w' : World} (h : LogInv w) (h1 : w'.bodies = w.bodies) (h2 : w'.joints = w.joints) (h3 : w'.contacts = w.contacts)
    (h4 : w'.forces.map (·.1) = w.forces.map (·.1)) (h5 : w'.log = w.log) (h6 : w.next ≤ w'.next) : Segment w [] w' := by
  have e : ∀ o, Alive w' o ↔ Alive w o := by
    intro o
    cases o <;> simp only [Alive, h1, h2, h3, h4]
  exact {
    log := by simp [h5]
    next := h6
    forces_nodup := by rw [h4]; exact h.forces_nodup
    fresh := fun o ho => by rw [e]; exact (h.fresh o (h6.trans ho)).2
    born := fun o => by simp [e]
    born_new := fun o a b => absurd ((e o).1 a) b
    died := fun o => by simp [e]
    told := by simp }

/-- Operations that make one object. -/
theorem Segment.make {w w' : World} (h : LogInv w) (o0 : Obj) (h0 : o0.id = w.next) (hn : w'.next = w.next + 1) (hl : w'.log = w.log ++ [.constructed o0])
    (hf : (w'.forces.map (·.1)).Nodup) (ha : ∀ o, Alive w' o ↔ Alive w o ∨ o = o0) : Segment w [.constructed o0] w' := by
  have hfr : ¬Alive w o0 := (h.fresh o0 (by omega)).2
  exact {
    log := hl
    next := by omega
    forces_nodup := hf
    fresh := fun o ho => by
      rw [ha]
      rintro (a | rfl)
      · exact (h.fresh o (by omega)).2 a
      · omega
    born := fun o => by
      simp only [ha, List.count_singleton, beq_iff_eq, Event.constructed.injEq]
      by_cases e : o = o0
      · subst e; simp [hfr]
      · simp [e, Ne.symm e]
    born_new := fun o a b => by
      rcases (ha o).1 a with a | rfl
      · exact absurd a b
      · omega
    died := fun o => by
      simp only [ha]
      rw [if_neg (fun hh => hh.2 (Or.inl hh.1))]
      simp
    told := fun o => by simp }

theorem alive_contact {w : World} (h : Inv0 w) {n : Nat} : Alive w (.contact n) ↔ (w.contact n).isSome := h.contacts_iff n

theorem cleaned_segment {w : World} (h : LogInv w) (i : Inv0 w) : ∃ s1 s2, Segment w (s1 ++ s2) (cleaned w) ∧
    (∀ o, (∀ n, o ≠ .contact n) → (s1 ++ s2).count (.notified o) = (s1 ++ s2).count (.freed o) ∧ s1.count (.freed o) = 0) ∧
    (∀ n, (s1 ++ s2).count (.notified (.contact n)) = 0) := by
  set dc := w.contacts.filter (deadC w) with hdc
  set dj := w.joints.filter (deadJ w) with hdj
  set df := (w.forces.filter (·.2)).map (·.1) with hdf
  set db := w.bodies.filter (killedB w) with hdb
  have nc : dc.Nodup := i.contacts_nodup.filter _
  have nj : dj.Nodup := i.joints_nodup.filter _
  have nf : df.Nodup := (List.filter_sublist.map _).nodup h.forces_nodup
  have nb : db.Nodup := i.bodies_nodup.filter _
  refine ⟨dc.map (fun n => .freed (.contact n)) ++ (dj.map (fun n => .notified (.joint n)) ++ df.map (fun n => .notified (.force n)) ++ db.map (fun n => .notified (.body n))),
      (dj.map (fun n => .freed (.joint n)) ++ df.map (fun n => .freed (.force n))) ++ db.map (fun n => .freed (.body n)), ?_, ?_, ?_⟩
  · have hforce : ∀ n, n ∈ (w.forces.filter (fun f => !f.2)).map (·.1) ↔ n ∈ w.forces.map (·.1) ∧ n ∉ df := by
      intro n
      constructor
      · intro hn
        obtain ⟨x, hx, rfl⟩ := List.mem_map.1 hn
        obtain ⟨hx, hx2⟩ := List.mem_filter.1 hx
        refine ⟨List.mem_map.2 ⟨x, hx, rfl⟩, fun hd => ?_⟩
        obtain ⟨y, hy, e⟩ := List.mem_map.1 hd
        obtain ⟨hy, hy2⟩ := List.mem_filter.1 hy
        have := List.inj_on_of_nodup_map h.forces_nodup hy hx e
        rw [this] at hy2
        simp [hy2] at hx2
      · rintro ⟨hn, hd⟩
        obtain ⟨x, hx, rfl⟩ := List.mem_map.1 hn
        refine List.mem_map.2 ⟨x, List.mem_filter.2 ⟨hx, ?_⟩, rfl⟩
        by_contra hc
        apply hd
        exact List.mem_map.2 ⟨x, List.mem_filter.2 ⟨hx, by simpa using hc⟩, rfl⟩
    have hdfs : ∀ n ∈ df, n ∈ w.forces.map (·.1) := fun n hn => (List.filter_sublist.map _).subset hn
    have sub : ∀ o, Alive (cleaned w) o → Alive w o := by
      intro o
      cases o with
      | body b => exact List.mem_of_mem_filter
      | joint b => exact List.mem_of_mem_filter
      | contact b => exact List.mem_of_mem_filter
      | force n => exact fun hn => ((hforce n).1 hn).1
    refine { log := by simp [cleaned, hdc, hdj, hdf, hdb], next := le_rfl, forces_nodup := (List.filter_sublist.map _).nodup h.forces_nodup,
             fresh := fun o ho ha => (h.fresh o ho).2 (sub o ha), born := fun o => ?_, born_new := fun o a b => absurd (sub o a) b, died := fun o => ?_, told := fun o => ?_ }
    · rw [if_neg (fun hh => hh.2 (sub o hh.1))]
      simp only [List.count_append]
      repeat rw [count_ev_ne (by simp)]
    · cases o with
      | body b =>
        have e : (Alive w (.body b) ∧ ¬Alive (cleaned w) (.body b)) ↔ b ∈ db := by
          show b ∈ w.bodies ∧ ¬(b ∈ w.bodies.filter _) ↔ _
          simp [hdb]; tauto
        simp only [List.count_append, e]
        rw [count_ev (f := fun n => .freed (.body n)) (fun a b e => by simpa using e) nb]
        repeat rw [count_ev_ne (by simp)]
        simp
      | joint b =>
        have e : (Alive w (.joint b) ∧ ¬Alive (cleaned w) (.joint b)) ↔ b ∈ dj := by
          show b ∈ w.joints ∧ ¬(b ∈ w.joints.filter _) ↔ _
          simp [hdj]; tauto
        simp only [List.count_append, e]
        rw [count_ev (f := fun n => .freed (.joint n)) (fun a b e => by simpa using e) nj]
        repeat rw [count_ev_ne (by simp)]
        simp
      | contact b =>
        have e : (Alive w (.contact b) ∧ ¬Alive (cleaned w) (.contact b)) ↔ b ∈ dc := by
          show b ∈ w.contacts ∧ ¬(b ∈ w.contacts.filter _) ↔ _
          simp [hdc]; tauto
        simp only [List.count_append, e]
        rw [count_ev (f := fun n => .freed (.contact n)) (fun a b e => by simpa using e) nc]
        repeat rw [count_ev_ne (by simp)]
        simp
      | force n =>
        have e : (Alive w (.force n) ∧ ¬Alive (cleaned w) (.force n)) ↔ n ∈ df := by
          show n ∈ w.forces.map (·.1) ∧ ¬(n ∈ (w.forces.filter (fun f => !f.2)).map (·.1)) ↔ _
          rw [hforce]
          have := hdfs n
          tauto
        simp only [List.count_append, e]
        rw [count_ev (f := fun n => .freed (.force n)) (fun a b e => by simpa using e) nf]
        repeat rw [count_ev_ne (by simp)]
        simp
    · cases o with
      | body b =>
        simp only [List.count_append]
        rw [count_ev (f := fun n => .freed (.body n)) (fun a b e => by simpa using e) nb, count_ev (f := fun n => .notified (.body n)) (fun a b e => by simpa using e) nb]
        repeat rw [count_ev_ne (by simp)]
        simp
      | joint b =>
        simp only [List.count_append]
        rw [count_ev (f := fun n => .freed (.joint n)) (fun a b e => by simpa using e) nj, count_ev (f := fun n => .notified (.joint n)) (fun a b e => by simpa using e) nj]
        repeat rw [count_ev_ne (by simp)]
        simp
      | force b =>
        simp only [List.count_append]
        rw [count_ev (f := fun n => .freed (.force n)) (fun a b e => by simpa using e) nf, count_ev (f := fun n => .notified (.force n)) (fun a b e => by simpa using e) nf]
        repeat rw [count_ev_ne (by simp)]
        simp
      | contact b =>
        simp only [List.count_append]
        rw [count_ev (f := fun n => .freed (.contact n)) (fun a b e => by simpa using e) nc]
        repeat rw [count_ev_ne (by simp)]
        simp
  · intro o ho
    constructor
    · cases o with
      | body b =>
        simp only [List.count_append]
        rw [count_ev (f := fun n => .freed (.body n)) (fun a b e => by simpa using e) nb, count_ev (f := fun n => .notified (.body n)) (fun a b e => by simpa using e) nb]
        repeat rw [count_ev_ne (by simp)]
        simp
      | joint b =>
        simp only [List.count_append]
        rw [count_ev (f := fun n => .freed (.joint n)) (fun a b e => by simpa using e) nj, count_ev (f := fun n => .notified (.joint n)) (fun a b e => by simpa using e) nj]
        repeat rw [count_ev_ne (by simp)]
        simp
      | force b =>
        simp only [List.count_append]
        rw [count_ev (f := fun n => .freed (.force n)) (fun a b e => by simpa using e) nf, count_ev (f := fun n => .notified (.force n)) (fun a b e => by simpa using e) nf]
        repeat rw [count_ev_ne (by simp)]
        simp
      | contact n => exact absurd rfl (ho n)
    · simp only [List.count_append]
      rw [count_ev_ne (fun n e => ho n (by simpa using e.symm))]
      repeat rw [count_ev_ne (by simp)]
  · intro n
    simp only [List.count_append]
    repeat rw [count_ev_ne (by simp)]

theorem Segment.trans {w w1 w2 : World} {s t : List Event} (h : LogInv w) (S : Segment w s w1) (T : Segment w1 t w2) (hk : ∀ o, Alive w1 o → Alive w2 o) : Segment w (s ++ t) w2 := by
  have hnew : ∀ o, Alive w2 o → ¬Alive w1 o → ¬Alive w o := fun o a b c => (h.fresh o (S.next.trans (T.born_new o a b))).2 c
  exact {
    log := by rw [T.log, S.log, List.append_assoc]
    next := S.next.trans T.next
    forces_nodup := T.forces_nodup
    fresh := T.fresh
    born := fun o => by
      rw [List.count_append, S.born, T.born]
      have a := hk o
      have b := hnew o
      by_cases h0 : Alive w o <;> by_cases h1 : Alive w1 o <;> by_cases h2 : Alive w2 o <;> simp [h0, h1, h2] <;> tauto
    born_new := fun o a b => by
      by_cases h1 : Alive w1 o
      · exact S.born_new o h1 b
      · exact S.next.trans (T.born_new o a h1)
    died := fun o => by
      rw [List.count_append, S.died, T.died]
      have a := hk o
      have b := hnew o
      by_cases h0 : Alive w o <;> by_cases h1 : Alive w1 o <;> by_cases h2 : Alive w2 o <;> simp [h0, h1, h2] <;> tauto
    told := fun o => by
      rw [List.count_append, List.count_append]
      exact Nat.add_le_add (S.told o) (T.told o) }

theorem Registered.segment {w w' : World} {ps : List (Nat × Nat)} (h : LogInv w) (i : Inv0 w) (R : Registered w ps w') :
    ∃ ns : List Nat, Segment w (ns.map fun n => .constructed (.contact n)) w'.settle ∧ ∀ o, Alive w o → Alive w'.settle o := by
  obtain ⟨ns, e1, e2⟩ := R.log
  have hnd : (w.contacts ++ ns).Nodup := e2 ▸ R.inv.contacts_nodup
  rw [List.nodup_append] at hnd
  have hns : ∀ n ∈ ns, n ∉ w.contacts := fun n hn hc => hnd.2.2 n hc n hn rfl
  have nc : ∀ o, (∀ n, o ≠ .contact n) → (Alive w'.settle o ↔ Alive w o) := by
    intro o ho
    cases o with
    | body b => show b ∈ w'.bodies ↔ b ∈ w.bodies; rw [R.bodies]
    | joint b => show b ∈ w'.joints ↔ b ∈ w.joints; rw [R.joints]
    | force b => show b ∈ w'.forces.map (·.1) ↔ b ∈ w.forces.map (·.1); rw [R.forces]
    | contact n => exact absurd rfl (ho n)
  have cc : ∀ n, Alive w'.settle (.contact n) ↔ n ∈ w.contacts ∨ n ∈ ns := by
    intro n
    show n ∈ w'.contacts ↔ _
    rw [e2, List.mem_append]
  have mono : ∀ o, Alive w o → Alive w'.settle o := by
    intro o ho
    cases o with
    | contact n => exact (cc n).2 (Or.inl ho)
    | _ => exact (nc _ (by simp)).2 ho
  have hnew : ∀ n ∈ ns, w.next ≤ n := by
    intro n hn
    obtain ⟨C, hC⟩ := Option.isSome_iff_exists.1 ((R.inv.contacts_iff n).1 (by rw [e2]; simp [hn]))
    cases hw : w.contact n with
    | none => exact (R.new n C hC hw).2.2.2.2
    | some D => exact absurd ((i.contacts_iff n).2 (by simp [hw])) (hns n hn)
  refine ⟨ns, {
    log := e1
    next := R.next
    forces_nodup := by rw [show w'.settle.forces = w.forces from R.forces]; exact h.forces_nodup
    fresh := fun o ho ha => ?_
    born := fun o => ?_
    born_new := fun o a b => ?_
    died := fun o => ?_
    told := fun o => ?_ }, mono⟩
  · have hlt : w'.next ≤ o.id := ho
    cases o with
    | contact n =>
      obtain ⟨C, hC⟩ := Option.isSome_iff_exists.1 ((R.inv.contacts_iff n).1 ha)
      have := R.inv.fresh_contact n C hC
      exact absurd this (not_lt.2 hlt)
    | _ => exact (h.fresh _ (R.next.trans hlt)).2 ((nc _ (by simp)).1 ha)
  · cases o with
    | contact n =>
      rw [count_ev (f := fun n => .constructed (.contact n)) (fun a b e => by simpa using e) hnd.2.1]
      have : (Alive w'.settle (.contact n) ∧ ¬Alive w (.contact n)) ↔ n ∈ ns := by
        rw [cc]
        show (n ∈ w.contacts ∨ n ∈ ns) ∧ ¬n ∈ w.contacts ↔ _
        have := hns n
        tauto
      simp only [this]
    | _ => rw [count_ev_ne (by simp), if_neg (fun hh => hh.2 ((nc _ (by simp)).1 hh.1))]
  · cases o with
    | contact n =>
      rcases (cc n).1 a with a | a
      · exact absurd a b
      · exact hnew n a
    | _ => exact absurd ((nc _ (by simp)).1 a) b
  · rw [if_neg (fun hh => hh.2 (mono o hh.1)), count_ev_ne (by simp)]
  · rw [count_ev_ne (by simp), count_ev_ne (by simp)]

theorem clear_segment {cfg : Cfg} {w : World} (h : LogInv w) (i : Inv w) (hd : ∀ b ∈ w.bodies, Destructible cfg w b) :
    ∃ s, Segment w s (w.clear cfg).1 ∧ ∀ o, s.count (.notified o) = 0 := by
  obtain ⟨ct, e, -, -⟩ := destroyBodies_ok cfg w.bodies i.toInv0.weak i.bodies_nodup (fun _ hb => hb) hd
  refine ⟨w.bodies.map (fun b => .freed (.body b)) ++ ((w.forces.map (·.1)).map (fun n => .freed (.force n)) ++ w.contacts.map (fun n => .freed (.contact n)) ++
    w.joints.map (fun n => .freed (.joint n))), ?_, ?_⟩
  · obtain ⟨-, -, c1, c2, c3, c4, -⟩ := (i.clear (cfg := cfg)).1 hd
    have dead : ∀ o, ¬Alive (w.clear cfg).1 o := by
      intro o
      cases o <;> simp [Alive, c1, c2, c3, c4]
    refine {
      log := ?_
      next := ?_
      forces_nodup := by simp [c4]
      fresh := fun o _ => dead o
      born := fun o => ?_
      born_new := fun o a _ => absurd a (dead o)
      died := fun o => ?_
      told := fun o => ?_ }
    · unfold World.clear
      rw [e]
      simp [i.broken]
    · unfold World.clear
      rw [e]
      simp [i.broken]
    · rw [if_neg (fun hh => dead o hh.1)]
      simp only [List.count_append]
      repeat rw [count_ev_ne (by simp)]
    · simp only [List.count_append, dead, not_false_eq_true, and_true]
      cases o with
      | body b =>
        rw [count_ev (f := fun n => .freed (.body n)) (fun a b e => by simpa using e) i.bodies_nodup]
        repeat rw [count_ev_ne (by simp)]
        simp [Alive]
      | joint b =>
        rw [count_ev (f := fun n => .freed (.joint n)) (fun a b e => by simpa using e) i.joints_nodup]
        repeat rw [count_ev_ne (by simp)]
        simp [Alive]
      | contact b =>
        rw [count_ev (f := fun n => .freed (.contact n)) (fun a b e => by simpa using e) i.contacts_nodup]
        repeat rw [count_ev_ne (by simp)]
        simp [Alive]
      | force b =>
        rw [count_ev (f := fun n => .freed (.force n)) (fun a b e => by simpa using e) h.forces_nodup]
        repeat rw [count_ev_ne (by simp)]
        simp [Alive]
    · simp only [List.count_append]
      rw [count_ev_ne (f := fun b => .freed (.body b)) (e := .notified o) (by simp), count_ev_ne (f := fun b => .freed (.force b)) (e := .notified o) (by simp),
        count_ev_ne (f := fun b => .freed (.contact b)) (e := .notified o) (by simp), count_ev_ne (f := fun b => .freed (.joint b)) (e := .notified o) (by simp)]
      simp
  · intro o
    simp only [List.count_append]
    repeat rw [count_ev_ne (by simp)]

/-- What an operation adds to the log. -/
theorem segment_apply {cfg : Cfg} {w : World} (i : Inv w) (h : LogInv w) (o : Op) (ha : o.Allowed w) (hd : o.DestroysSafely cfg w) :
    ∃ s1 s2, Segment w (s1 ++ s2) (w.apply cfg o).1 ∧
      (o ≠ .clear → ∀ x, (∀ n, x ≠ .contact n) → (s1 ++ s2).count (.notified x) = (s1 ++ s2).count (.freed x) ∧ s1.count (.freed x) = 0) ∧
      (o = .clear → ∀ x, (s1 ++ s2).count (.notified x) = 0) ∧
      ∀ n, (s1 ++ s2).count (.notified (.contact n)) = 0 := by
  have none : ∀ w', o ≠ .clear → (w.apply cfg o).1 = w' → w'.bodies = w.bodies → w'.joints = w.joints → w'.contacts = w.contacts → w'.forces.map (·.1) = w.forces.map (·.1) →
      w'.log = w.log → w.next ≤ w'.next → ∃ s1 s2, Segment w (s1 ++ s2) (w.apply cfg o).1 ∧
      (o ≠ .clear → ∀ x, (∀ n, x ≠ .contact n) → (s1 ++ s2).count (.notified x) = (s1 ++ s2).count (.freed x) ∧ s1.count (.freed x) = 0) ∧
      (o = .clear → ∀ x, (s1 ++ s2).count (.notified x) = 0) ∧
      ∀ n, (s1 ++ s2).count (.notified (.contact n)) = 0 := by
    rintro w' hc rfl h1 h2 h3 h4 h5 h6
    exact ⟨[], [], Segment.same h h1 h2 h3 h4 h5 h6, by simp, fun e => absurd e hc, by simp⟩
  have make : ∀ w' o0, o ≠ .clear → (w.apply cfg o).1 = w' → Segment w [.constructed o0] w' → ∃ s1 s2, Segment w (s1 ++ s2) (w.apply cfg o).1 ∧
      (o ≠ .clear → ∀ x, (∀ n, x ≠ .contact n) → (s1 ++ s2).count (.notified x) = (s1 ++ s2).count (.freed x) ∧ s1.count (.freed x) = 0) ∧
      (o = .clear → ∀ x, (s1 ++ s2).count (.notified x) = 0) ∧
      ∀ n, (s1 ++ s2).count (.notified (.contact n)) = 0 := by
    rintro w' o0 hc rfl S
    exact ⟨[.constructed o0], [], by simpa using S, by simp, fun e => absurd e hc, by simp⟩
  cases o with
  | makeBody s =>
    refine make _ (.body w.next) (by simp) rfl (Segment.make h _ rfl rfl rfl h.forces_nodup fun x => ?_)
    cases x <;> simp [Alive, World.apply, World.makeBody]
  | makeConstraint b0 b1 d f =>
    cases f with
    | true =>
      have s0 := (i.bodies_iff b0).1 ha.1
      have s1 := (i.bodies_iff b1).1 ha.2
      refine none w (by simp) ?_ rfl rfl rfl rfl rfl le_rfl
      show (w.makeConstraint b0 b1 d true).1 = w
      unfold World.makeConstraint
      rw [if_neg (by rintro (e | e) <;> simp_all)]
      rfl
    | false =>
      refine make (addJoint w b0 b1 d) (.joint w.next) (by simp) ?_ (Segment.make h _ rfl rfl rfl h.forces_nodup fun x => ?_)
      · show (w.makeConstraint b0 b1 d false).1 = _
        rw [makeConstraint_eq i.toInv0 d ha.1 ha.2]
      · cases x <;> simp [Alive, addJoint]
  | makeForce =>
    refine make _ (.force w.next) (by simp) rfl (Segment.make h _ rfl rfl rfl ?_ fun x => ?_)
    · show ((w.forces ++ [(w.next, false)]).map (·.1)).Nodup
      rw [List.map_append, List.nodup_append]
      refine ⟨h.forces_nodup, by simp, ?_⟩
      rintro a ha b hb rfl
      simp only [List.map_cons, List.map_nil, List.mem_singleton] at hb
      exact (h.fresh (.force w.next) le_rfl).2 (hb ▸ ha)
    · cases x <;> simp [Alive, World.apply, World.makeForce]
  | addCollider b v =>
    obtain ⟨r, hr⟩ := Option.isSome_iff_exists.1 ((i.bodies_iff b).1 ha)
    have e : (w.addCollider b v).1.bodies = w.bodies ∧ (w.addCollider b v).1.joints = w.joints ∧ (w.addCollider b v).1.contacts = w.contacts ∧
        (w.addCollider b v).1.forces = w.forces ∧ (w.addCollider b v).1.log = w.log ∧ (w.addCollider b v).1.next = w.next + 1 := by
      simp only [World.addCollider, hr]
      split_ifs <;> simp [setBody]
    obtain ⟨e1, e2, e3, e4, e5, e6⟩ := e
    exact none _ (by simp) rfl e1 e2 e3 (by rw [show (w.apply cfg (.addCollider b v)).1.forces = w.forces from e4]) e5 (by
      rw [show (w.apply cfg (.addCollider b v)).1.next = w.next + 1 from e6]; exact Nat.le_succ _)
  | removeCollider k =>
    obtain ⟨r, hr, -⟩ := i.tree_owned k ha
    refine none (dropCollider w k r) (by simp) ?_ rfl rfl rfl rfl rfl le_rfl
    show (w.removeCollider k).1 = _
    rw [removeCollider_eq i.toInv0.weak ha hr]
  | killBody b =>
    obtain ⟨r, hr⟩ := Option.isSome_iff_exists.1 ((i.bodies_iff b).1 ha)
    refine none (w.setBody b { r with killed := true }) (by simp) ?_ rfl rfl rfl rfl rfl le_rfl
    simp [World.apply, World.killBody, hr]
  | killJoint b =>
    obtain ⟨r, hr⟩ := Option.isSome_iff_exists.1 ((i.joints_iff b).1 ha)
    refine none { w with joint := Function.update w.joint b (some { r with killed := true }) } (by simp) ?_ rfl rfl rfl rfl rfl le_rfl
    simp [World.apply, World.killJoint, hr]
  | killContact b =>
    obtain ⟨r, hr⟩ := Option.isSome_iff_exists.1 ((i.contacts_iff b).1 ha)
    refine none (w.setContact b { r with killed := true }) (by simp) ?_ rfl rfl rfl rfl rfl le_rfl
    simp [World.apply, World.killContact, hr]
  | killForce n =>
    refine none { w with forces := w.forces.map fun f => if f.1 = n then (n, true) else f } (by simp) ?_ rfl rfl rfl ?_ rfl le_rfl
    · show (w.killForce n).1 = _
      unfold World.killForce
      rw [if_pos (show n ∈ w.forces.map (·.1) from ha)]
    · rw [List.map_map]
      apply List.map_congr_left
      intro x _
      simp only [Function.comp]
      split_ifs with e
      · exact e.symm
      · rfl
  | step p c f =>
    obtain ⟨s1, s2, S, k1, k2⟩ := cleaned_segment h i.toInv0
    rcases step_ok i ha hd with ⟨-, e, -⟩ | ⟨-, -, -, w1, R, e⟩
    · refine ⟨s1, s2, ?_, fun _ => k1, by simp, k2⟩
      show Segment w _ (w.step cfg p c f).1
      rw [e]; exact S
    · obtain ⟨ns, T, mono⟩ := R.segment (S.logInv h) i.cleaned.toInv0
      refine ⟨s1, s2 ++ ns.map (fun n => .constructed (.contact n)), ?_, fun _ x hx => ?_, by simp, fun n => ?_⟩
      · show Segment w _ (w.step cfg p c f).1
        rw [e, ← List.append_assoc]
        exact S.trans h T mono
      · rw [← List.append_assoc, List.count_append, List.count_append (l₁ := s1 ++ s2), count_ev_ne (by simp), count_ev_ne (by simp)]
        exact k1 x hx
      · rw [← List.append_assoc, List.count_append, count_ev_ne (by simp)]
        exact k2 n
  | clear =>
    obtain ⟨s, S, k⟩ := clear_segment (cfg := cfg) h i hd
    exact ⟨s, [], by rw [List.append_nil]; exact S, fun e => absurd rfl e, fun _ x => by simpa using k x, fun n => by simpa using k _⟩
  | setContactFactory =>
    have hc : w.contacts = [] := ha
    exact none w.setContactFactory (by simp) rfl rfl rfl hc.symm rfl (by simp [World.setContactFactory, hc]) le_rfl

theorem logInv_init : LogInv init where
  forces_nodup := by simp [init]
  fresh o _ := by cases o <;> simp [init, Alive]
  made := by simp [init]
  alive o ho := by cases o <;> simp [init, Alive] at ho
  gone o _ := by simp [init]

theorem Reachable.logInv {cfg : Cfg} {w : World} (h : Reachable cfg w) : LogInv w := by
  induction h with
  | init => exact logInv_init
  | op hr o ha hd ih =>
    obtain ⟨s1, s2, S, -⟩ := segment_apply hr.inv ih o ha hd
    exact S.logInv ih

end Simu.World
