import Verif.Mjc.Spec

/-!
# Lemmas: trees of bodies, and bodies without mass
-/

set_option linter.unusedSectionVars false

namespace Simox.Mjc

open Kin

section
variable {R V Q : Type}

theorem mem_allAll {x : Body R V Q} : ∀ {bs : List (Body R V Q)}, x ∈ allAll bs ↔ ∃ b ∈ bs, x ∈ b.all := by
  intro bs
  induction bs with
  | nil => simp [allAll]
  | cons b bs ih => simp [allAll, ih]

theorem Body.all_eq (b : Body R V Q) : b.all = b :: allAll b.bodies := by
  cases b
  rfl

theorem mem_all {x b : Body R V Q} : x ∈ b.all ↔ x = b ∨ ∃ c ∈ b.bodies, x ∈ c.all := by
  rw [Body.all_eq, List.mem_cons, mem_allAll]

theorem allAll_length {bs : List (Body R V Q)} {b : Body R V Q} (h : b ∈ bs) : b.all.length ≤ (allAll bs).length := by
  induction bs with
  | nil => simp at h
  | cons a bs ih =>
    rw [allAll, List.length_append]
    rcases List.mem_cons.1 h with rfl | h
    · omega
    · have := ih h
      omega

theorem child_length {b c : Body R V Q} (h : c ∈ b.bodies) : c.all.length < b.all.length := by
  rw [Body.all_eq b, List.length_cons]
  have := allAll_length h
  omega

variable [Group R] [AddCommGroup V] [DistribMulAction R V]

theorem Body.move_all (g : Pose R V) (b : Body R V Q) : (b.move g).all = b.move g :: allAll b.bodies := by
  cases b
  rfl

theorem move_all_length (g : Pose R V) (b : Body R V Q) : (b.move g).all.length = b.all.length := by
  rw [Body.move_all, Body.all_eq b, List.length_cons, List.length_cons]

theorem allAll_move_length (g : Pose R V) (bs : List (Body R V Q)) : (allAll (bs.map (Body.move g))).length = (allAll bs).length := by
  induction bs with
  | nil => rfl
  | cons b bs ih => rw [List.map_cons, allAll, allAll, List.length_append, List.length_append, ih, move_all_length]

theorem merge_length {loc : String → Pose R V} {acc : Pose R V} {b c : Body R V Q} {s : Sets} (hb : b.bodies = [c]) : (merge loc acc b c s).1.all.length < b.all.length := by
  rw [merge]
  simp only
  rw [Body.all_eq, Body.all_eq b, List.length_cons, List.length_cons, hb]
  simp only [Body.bodies, allAll, List.append_nil]
  rw [allAll_move_length]
  cases c
  simp [Body.all]

/-! ## Mass -/

theorem hasMass_append (i j : List (Item R V Q)) : hasMass (i ++ j) = (hasMass i || hasMass j) := by
  unfold hasMass
  rw [List.any_append]

theorem move_kind (g : Pose R V) (e : Item R V Q) : (e.move g).kind = e.kind := by
  unfold Item.move
  split <;> rfl

theorem hasMass_move (g : Pose R V) (i : List (Item R V Q)) : hasMass (i.map (Item.move g)) = hasMass i := by
  unfold hasMass
  rw [List.any_map]
  congr 1
  funext e
  simp [move_kind]

theorem massive_each {f : Body R V Q → Sets → Out R V Q × Sets} {bs : List (Body R V Q)} (h : ∀ b ∈ bs, ∀ s, (f b s).1.Massive) : ∀ s, ∀ x ∈ allAll (Out.bodies (each f bs s).1), hasMass x.items = true := by
  induction bs with
  | nil => simp [each, Out.bodies, allAll]
  | cons b bs ih =>
    intro s x hx
    rw [each] at hx
    simp only at hx
    have h1 := h b (by simp) s
    have h2 := ih (fun b hb => h b (List.mem_cons_of_mem _ hb)) (f b s).2 x
    cases hf : (f b s).1 with
    | body y =>
      rw [hf] at hx h1
      rw [Out.bodies, allAll, List.mem_append] at hx
      rcases hx with hx | hx
      · exact h1 x hx
      · exact h2 hx
    | site y =>
      rw [hf] at hx
      exact h2 hx

theorem massive (loc : String → Pose R V) (k : ℕ) : ∀ (acc : Pose R V) (b : Body R V Q) (s : Sets), b.all.length ≤ k → (sanitize loc k acc b s).1.Massive := by
  induction k with
  | zero =>
    intro acc b s h
    rw [Body.all_eq] at h
    simp at h
  | succ k ih =>
    intro acc b s h
    have hd : ∀ c ∈ b.bodies, ∀ s, (sanitize loc k 1 c s).1.Massive := fun c hc s => ih _ _ _ (by have := child_length hc; omega)
    rw [sanitize]
    by_cases hm : hasMass b.items = true
    · rw [if_pos hm]
      intro x hx
      rw [mem_all] at hx
      rcases hx with rfl | ⟨c, hc, hx⟩
      · show hasMass (b.items ++ _) = true
        rw [hasMass_append, hm, Bool.true_or]
      · exact massive_each hd s x (mem_allAll.2 ⟨c, hc, hx⟩)
    · rw [if_neg hm]
      split
      · unfold leaf
        split
        · trivial
        · intro x hx
          rw [mem_all] at hx
          rcases hx with rfl | ⟨c, hc, hx⟩
          · show hasMass (b.items ++ _) = true
            rw [hasMass_append]
            simp [hasMass, dummyItem]
          · simp [Body.bodies] at hc
      · next c hb => exact ih _ _ _ (by have := merge_length (loc := loc) (acc := acc) (s := s) hb; omega)
      · next c d bs hb =>
        intro x hx
        rw [mem_all] at hx
        rcases hx with rfl | ⟨y, hy, hx⟩
        · show hasMass (dummyItem :: b.items ++ _) = true
          simp [hasMass, dummyItem]
        · exact massive_each (hb ▸ hd) s x (mem_allAll.2 ⟨y, hy, hx⟩)

/-! ## Motions -/

theorem motion_append (M : Motion R V Q) (q : String → Q) (i j : List (Item R V Q)) : motion M q (i ++ j) = motion M q i * motion M q j := by
  unfold motion
  rw [List.filter_append, List.map_append, List.prod_append]

theorem motion_move (M : Motion R V Q) (q : String → Q) (g : Pose R V) (i : List (Item R V Q)) : motion M q (i.map (Item.move g)) = g * motion M q i * g⁻¹ := by
  induction i with
  | nil => simp [motion]
  | cons e i ih =>
    have h1 : motion M q (List.map (Item.move g) (e :: i)) = motion M q [e.move g] * motion M q (i.map (Item.move g)) := by rw [← motion_append]; rfl
    have h2 : motion M q (e :: i) = motion M q [e] * motion M q i := by rw [← motion_append]; rfl
    have h3 : motion M q [e.move g] = g * motion M q [e] * g⁻¹ := by
      by_cases hk : e.kind = .joint
      · unfold motion Item.move
        simp only [hk]
        simp [hk, movePos, M.moved]
      · unfold motion
        simp [move_kind, hk]
    rw [h1, h2, h3, ih]
    group

theorem seen_move (g h : Pose R V) (e : Item R V Q) : (e.move g).seen h = e.seen (h * g) := by
  cases hk : e.kind <;> simp [Item.move, Item.seen, hk, movePos, mul_def, mul_smul, smul_add, add_assoc, mul_assoc]

theorem seen_move_all (g h : Pose R V) (i : List (Item R V Q)) : (i.map (Item.move g)).filterMap (Item.seen h) = i.filterMap (Item.seen (h * g)) := by
  rw [List.filterMap_map]
  congr 1
  funext e
  exact seen_move g h e

theorem Body.seen_eq (M : Motion R V Q) (q : String → Q) (g : Pose R V) (b : Body R V Q) :
    b.seen M q g = b.items.filterMap (Item.seen (g * b.pose * motion M q b.items)) ++ seenAll M q (g * b.pose * motion M q b.items) b.bodies := by
  cases b
  rfl

theorem Body.seen_move (M : Motion R V Q) (q : String → Q) (g h : Pose R V) (b : Body R V Q) : (b.move g).seen M q h = b.seen M q (h * g) := by
  rw [Body.seen_eq, Body.seen_eq]
  have : (b.move g).pose = g * b.pose := rfl
  rw [this, mul_assoc h g]
  rfl

theorem seenAll_move (M : Motion R V Q) (q : String → Q) (g h : Pose R V) (bs : List (Body R V Q)) : seenAll M q h (bs.map (Body.move g)) = seenAll M q (h * g) bs := by
  induction bs with
  | nil => rfl
  | cons b bs ih => rw [List.map_cons, seenAll, seenAll, ih, Body.seen_move]

theorem joints_unseen {i : List (Item R V Q)} (h : ∀ e ∈ i, e.kind = .joint) (g : Pose R V) : i.filterMap (Item.seen g) = [] := by
  rw [List.filterMap_eq_nil_iff]
  intro e he
  unfold Item.seen
  rw [h e he]

theorem merge_items (loc : String → Pose R V) (acc : Pose R V) (b c : Body R V Q) (s : Sets) : (merge loc acc b c s).1.items = b.items ++ c.items.map (Item.move (loc c.name * acc)) := rfl

theorem merge_bodies (loc : String → Pose R V) (acc : Pose R V) (b c : Body R V Q) (s : Sets) : (merge loc acc b c s).1.bodies = c.bodies.map (Body.move (loc c.name * acc)) := rfl

theorem merge_pose (loc : String → Pose R V) (acc : Pose R V) (b c : Body R V Q) (s : Sets) : (merge loc acc b c s).1.pose = b.pose := rfl

theorem merge_seen (M : Motion R V Q) (q : String → Q) {loc : String → Pose R V} {acc g : Pose R V} {b c : Body R V Q} {s : Sets} (hb : b.bodies = [c]) (hj : ∀ e ∈ b.items, e.kind = .joint)
    (hp : c.pose = loc c.name * acc) : (merge loc acc b c s).1.seen M q g = b.seen M q g := by
  rw [Body.seen_eq M q g b, hb, joints_unseen hj, List.nil_append, seenAll, seenAll, List.append_nil, Body.seen_eq M q _ c, Body.seen_eq, merge_items, merge_bodies, merge_pose]
  rw [List.filterMap_append, joints_unseen hj, List.nil_append, seen_move_all, seenAll_move, motion_append, motion_move, ← hp]
  have e : g * b.pose * (motion M q b.items * (c.pose * motion M q c.items * c.pose⁻¹)) * c.pose = g * b.pose * motion M q b.items * c.pose * motion M q c.items := by group
  rw [e]

/-! ## Everything stays where it is -/

theorem Faithful.child {loc : String → Pose R V} {b c : Body R V Q} (h : Faithful loc b) (hc : c ∈ b.bodies) : Faithful loc c :=
  fun x hx => h x (mem_all.2 (.inr ⟨c, hc, hx⟩))

theorem Plain.child {b c : Body R V Q} (h : Plain b) (hc : c ∈ b.bodies) : Plain c := fun x hx => h x (mem_all.2 (.inr ⟨c, hc, hx⟩))

theorem Faithful.move {loc : String → Pose R V} {b : Body R V Q} (h : Faithful loc b) (g : Pose R V) : Faithful loc (b.move g) := by
  intro x hx c hc
  rw [Body.move_all, List.mem_cons] at hx
  rcases hx with rfl | hx
  · exact h b (by simp [Body.all_eq]) c hc
  · exact h x (by rw [Body.all_eq]; exact List.mem_cons_of_mem _ hx) c hc

theorem Plain.move {b : Body R V Q} (h : Plain b) (g : Pose R V) : Plain (b.move g) := by
  intro x hx hm
  rw [Body.move_all, List.mem_cons] at hx
  rcases hx with rfl | hx
  · exact h b (by simp [Body.all_eq]) hm
  · exact h x (by rw [Body.all_eq]; exact List.mem_cons_of_mem _ hx) hm

theorem Body.straight_eq (loc : String → Pose R V) (acc : Pose R V) (b : Body R V Q) : b.Straight loc acc ↔ StraightAll loc acc (!hasMass b.items && b.bodies.length == 1) b.bodies := by
  cases b
  rfl

theorem straight_move (loc : String → Pose R V) (acc g : Pose R V) (b : Body R V Q) : (b.move g).Straight loc acc ↔ b.Straight loc acc := by
  rw [Body.straight_eq, Body.straight_eq]
  rfl

theorem straightAll_move (loc : String → Pose R V) (acc g : Pose R V) (m : Bool) (bs : List (Body R V Q)) : StraightAll loc acc m (bs.map (Body.move g)) ↔ StraightAll loc acc m bs := by
  induction bs with
  | nil => rfl
  | cons b bs ih =>
    rw [List.map_cons, StraightAll, StraightAll, ih, straight_move, straight_move]
    rfl

theorem straightAll_false {loc : String → Pose R V} {acc : Pose R V} {bs : List (Body R V Q)} (h : StraightAll loc acc false bs) : ∀ b ∈ bs, b.Straight loc 1 := by
  induction bs with
  | nil => simp
  | cons b bs ih =>
    rw [StraightAll, if_neg (by simp)] at h
    intro x hx
    rcases List.mem_cons.1 hx with rfl | hx
    · exact h.1
    · exact ih h.2 x hx

theorem added_each (M : Motion R V Q) (q : String → Q) {f : Body R V Q → Sets → Out R V Q × Sets} {bs : List (Body R V Q)} (g : Pose R V)
    (h : ∀ b ∈ bs, ∀ s, ∃ extra, ((f b s).1.seen M q g).Perm (b.seen M q g ++ extra) ∧ ∀ x ∈ extra, x.Added) : ∀ s, ∃ extra,
      ((Out.sites (each f bs s).1).filterMap (Item.seen g) ++ seenAll M q g (Out.bodies (each f bs s).1)).Perm (seenAll M q g bs ++ extra) ∧ ∀ x ∈ extra, x.Added := by
  induction bs with
  | nil => exact fun s => ⟨[], by simp [each, Out.sites, Out.bodies, seenAll], by simp⟩
  | cons b bs ih =>
    intro s
    obtain ⟨e1, p1, a1⟩ := h b (by simp) s
    obtain ⟨e2, p2, a2⟩ := ih (fun b hb => h b (List.mem_cons_of_mem _ hb)) (f b s).2
    refine ⟨e1 ++ e2, ?_, ?_⟩
    · rw [each]
      simp only
      have hr : (seenAll M q g (b :: bs) ++ (e1 ++ e2)).Perm ((b.seen M q g ++ e1) ++ (seenAll M q g bs ++ e2)) := by
        rw [seenAll, List.append_assoc, List.append_assoc]
        apply List.Perm.append_left
        rw [← List.append_assoc, ← List.append_assoc]
        exact List.Perm.append_right _ List.perm_append_comm
      refine List.Perm.trans ?_ hr.symm
      refine List.Perm.trans ?_ (p1.append p2)
      cases hf : (f b s).1 with
      | body y =>
        rw [Out.sites, Out.bodies, seenAll, Out.seen, ← List.append_assoc, ← List.append_assoc]
        exact List.Perm.append_right _ List.perm_append_comm
      | site y =>
        rw [Out.sites, Out.bodies, Out.seen, List.filterMap_cons]
        cases y.seen g with
        | none => simp
        | some z => simp
    · intro x hx
      rcases List.mem_append.1 hx with hx | hx
      · exact a1 x hx
      · exact a2 x hx

theorem site_kind {loc : String → Pose R V} (k : ℕ) : ∀ (acc : Pose R V) (b : Body R V Q) (s : Sets) (e : Item R V Q), (sanitize loc k acc b s).1 = .site e → e.kind = .site := by
  induction k with
  | zero =>
    intro acc b s e h
    rw [sanitize] at h
    cases h
  | succ k ih =>
    intro acc b s e h
    rw [sanitize] at h
    by_cases hm : hasMass b.items = true
    · rw [if_pos hm] at h
      cases h
    · rw [if_neg hm] at h
      split at h
      · unfold leaf at h
        split at h
        · simp only [Out.site.injEq] at h
          rw [← h]
        · cases h
      · exact ih _ _ _ _ h
      · cases h

theorem sites_each {f : Body R V Q → Sets → Out R V Q × Sets} (h : ∀ b s e, (f b s).1 = .site e → e.kind = .site) (bs : List (Body R V Q)) : ∀ s, ∀ e ∈ Out.sites (each f bs s).1, e.kind = .site := by
  induction bs with
  | nil => simp [each, Out.sites]
  | cons b bs ih =>
    intro s e he
    rw [each] at he
    simp only at he
    cases hf : (f b s).1 with
    | body y =>
      rw [hf] at he
      exact ih _ e he
    | site y =>
      rw [hf, Out.sites, List.mem_cons] at he
      rcases he with rfl | he
      · exact h b s _ hf
      · exact ih _ e he

theorem motion_none (M : Motion R V Q) (q : String → Q) {i : List (Item R V Q)} (h : ∀ e ∈ i, e.kind ≠ .joint) : motion M q i = 1 := by
  unfold motion
  rw [List.filter_eq_nil_iff.2]
  · rfl
  · intro e he
    simp [h e he]

theorem motion_sites (M : Motion R V Q) (q : String → Q) (loc : String → Pose R V) (k : ℕ) (bs : List (Body R V Q)) (s : Sets) : motion M q (Out.sites (each (sanitize loc k 1) bs s).1) = 1 :=
  motion_none M q fun e he => by
    rw [sites_each (fun b s e => site_kind k 1 b s e) bs s e he]
    simp

theorem added (M : Motion R V Q) (q : String → Q) {loc : String → Pose R V} (k : ℕ) : ∀ (acc : Pose R V) (b : Body R V Q) (s : Sets) (g : Pose R V), b.all.length ≤ k →
    (∀ c ∈ b.bodies, c.pose = acc * loc c.name) → (∀ c ∈ b.bodies, Faithful loc c) → Plain b → b.Straight loc acc →
      ∃ extra, ((sanitize loc k acc b s).1.seen M q g).Perm (b.seen M q g ++ extra) ∧ ∀ x ∈ extra, x.Added := by
  induction k with
  | zero =>
    intro acc b s g h
    rw [Body.all_eq] at h
    simp at h
  | succ k ih =>
    intro acc b s g h hpos hf hpl hst
    rw [Body.straight_eq] at hst
    have hd : StraightAll loc acc false b.bodies → ∀ g, ∀ c ∈ b.bodies, ∀ s, ∃ extra, ((sanitize loc k 1 c s).1.seen M q g).Perm (c.seen M q g ++ extra) ∧ ∀ x ∈ extra, x.Added := by
      intro hs g c hc s
      refine ih 1 c s g (by have := child_length hc; omega) ?_ ?_ (hpl.child hc) (straightAll_false hs c hc)
      · intro d hd
        rw [one_mul]
        exact hf c hc c (by simp [Body.all_eq]) d hd
      · exact fun d hd => (hf c hc).child hd
    rw [sanitize]
    by_cases hm : hasMass b.items = true
    · rw [if_pos hm]
      simp only [hm, Bool.not_true, Bool.false_and] at hst
      obtain ⟨extra, hp, ha⟩ := added_each M q (f := sanitize loc k 1) (g * b.pose * motion M q b.items) (hd hst _) s
      refine ⟨extra, ?_, ha⟩
      simp only [Out.seen, Body.seen]
      rw [Body.seen_eq, motion_append, motion_sites, mul_one, List.filterMap_append, List.append_assoc, List.append_assoc]
      exact List.Perm.append_left _ hp
    · rw [if_neg hm]
      split
      · next hb =>
        rw [Body.seen_eq, hb, seenAll, List.append_nil]
        unfold leaf
        split
        · next hi => 
          refine ⟨[.frame .site b.name (g * b.pose)], by simp [hi, Out.seen, Item.seen], ?_⟩
          intro x hx
          rw [List.mem_singleton] at hx
          exact ⟨_, .inr ⟨_, hx⟩⟩
        · refine ⟨[.frame .inertial "dummy" (g * b.pose * motion M q b.items)], ?_, ?_⟩
          · simp only [Out.seen, Body.seen, seenAll, List.append_nil]
            rw [motion_append, motion_none M q (i := [dummyItem]) (by simp [dummyItem]), mul_one, List.filterMap_append]
            apply List.Perm.append_left
            have h1 : (⟨1, 0⟩ : Pose R V) = 1 := rfl
            simp [Item.seen, dummyItem, h1]
          · intro x hx
            rw [List.mem_singleton] at hx
            exact ⟨_, .inl hx⟩
      · next c hb =>
        have hm' : hasMass b.items = false := by simpa using hm
        rw [hb, hm'] at hst
        simp only [Bool.not_false, List.length_singleton, BEq.rfl, Bool.and_self, StraightAll, if_true, and_true] at hst
        have hc : c ∈ b.bodies := by simp [hb]
        have hcp : c.pose = loc c.name * acc := by rw [hpos c hc, hst.1]
        rw [← merge_seen M q (s := s) hb (hpl b (by simp [Body.all_eq]) hm') hcp]
        have hacc : (merge loc acc b c s).2.1 = loc c.name * acc := rfl
        rw [hacc]
        refine ih _ _ _ g (by have := merge_length (loc := loc) (acc := acc) (s := s) hb; omega) ?_ ?_ ?_ ?_
        · rw [merge_bodies]
          intro d hd
          obtain ⟨d, hd', rfl⟩ := List.mem_map.1 hd
          have : d.pose = loc d.name := hf c hc c (by simp [Body.all_eq]) d hd'
          show loc c.name * acc * d.pose = loc c.name * acc * loc d.name
          rw [this]
        · rw [merge_bodies]
          intro d hd
          obtain ⟨d, hd', rfl⟩ := List.mem_map.1 hd
          exact ((hf c hc).child hd').move _
        · intro x hx hxm
          rw [mem_all] at hx
          rcases hx with rfl | ⟨d, hd, hx⟩
          · rw [merge_items, hasMass_append, hm', hasMass_move, Bool.false_or] at hxm
            rw [merge_items]
            intro e he
            rcases List.mem_append.1 he with he | he
            · exact hpl b (by simp [Body.all_eq]) hm' e he
            · obtain ⟨e, he', rfl⟩ := List.mem_map.1 he
              rw [move_kind]
              exact (hpl.child hc) c (by simp [Body.all_eq]) hxm e he'
          · rw [merge_bodies] at hd
            obtain ⟨d, hd', rfl⟩ := List.mem_map.1 hd
            exact (((hpl.child hc).child hd').move _) x hx hxm
        · rw [Body.straight_eq, merge_items, merge_bodies, hasMass_append, hm', hasMass_move, Bool.false_or, straightAll_move, List.length_map, hst.1]
          exact (Body.straight_eq _ _ _).1 hst.2
      · next c d bs hb =>
        rw [hb] at hst
        have hst' : StraightAll loc acc false b.bodies := by
          rw [hb]
          simpa using hst
        obtain ⟨extra, hp, ha⟩ := added_each M q (f := sanitize loc k 1) (g * b.pose * motion M q b.items) (hd hst' _) s
        rw [hb] at hp
        refine ⟨.frame .inertial "dummy" (g * b.pose * motion M q b.items) :: extra, ?_, ?_⟩
        · simp only [Out.seen, Body.seen]
          have hmot : motion M q (dummyItem :: b.items ++ Out.sites (each (sanitize loc k 1) (c :: d :: bs) s).1) = motion M q b.items := by
            rw [motion_append, motion_sites, mul_one, show (dummyItem :: b.items : List (Item R V Q)) = [dummyItem] ++ b.items from rfl, motion_append, motion_none M q (i := [dummyItem]) (by simp [dummyItem]), one_mul]
          rw [hmot, Body.seen_eq, hb, List.cons_append, List.filterMap_cons, List.filterMap_append]
          have h1 : (⟨1, 0⟩ : Pose R V) = 1 := rfl
          have h2 : (dummyItem : Item R V Q).seen (g * b.pose * motion M q b.items) = some (.frame .inertial "dummy" (g * b.pose * motion M q b.items)) := by
            simp [Item.seen, dummyItem, h1]
          rw [h2]
          simp only
          rw [List.cons_append, List.append_assoc, List.append_assoc]
          refine List.Perm.trans (List.Perm.cons _ (List.Perm.append_left _ hp)) ?_
          rw [← List.append_assoc, ← List.append_assoc]
          exact List.perm_middle.symm
        · intro x hx
          rcases List.mem_cons.1 hx with rfl | hx
          · exact ⟨_, .inl rfl⟩
          · exact ha x hx

end

end Simox.Mjc
