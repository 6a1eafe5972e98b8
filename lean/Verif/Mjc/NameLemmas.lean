import Verif.Mjc.BuildLemmas

/-!
# Lemmas: the names of merged bodies
-/

set_option linter.unusedSectionVars false

namespace Simox.Mjc

open Kin

theorem find_absent {n : String} {s : Sets} (h : ∀ l ∈ s, n ∉ l) : s.find n = [n] := by
  induction s with
  | nil => rfl
  | cons l s ih => rw [Sets.find, if_neg (h l (by simp)), ih fun l hl => h l (List.mem_cons_of_mem _ hl)]

theorem find_append_left {n : String} {s t : Sets} (h : ∀ l ∈ t, n ∉ l) : Sets.find n (s ++ t) = s.find n := by
  induction s with
  | nil => exact find_absent h
  | cons l s ih =>
    rw [List.cons_append, Sets.find, Sets.find, ih]

theorem find_append_right {n : String} {s t : Sets} (h : ∀ l ∈ s, n ∉ l) : Sets.find n (s ++ t) = t.find n := by
  induction s with
  | nil => rfl
  | cons l s ih => rw [List.cons_append, Sets.find, if_neg (h l (by simp)), ih fun l hl => h l (List.mem_cons_of_mem _ hl)]

theorem with_absent {n : String} {f : List String → List String} {s : Sets} (h : ∀ l ∈ s, n ∉ l) : Sets.with f n s = s ++ [f [n]] := by
  induction s with
  | nil => rfl
  | cons l s ih => rw [Sets.with, if_neg (h l (by simp)), ih fun l hl => h l (List.mem_cons_of_mem _ hl), List.cons_append]

theorem find_with_id (n m : String) (s : Sets) : Sets.find m (Sets.with id n s) = s.find m := by
  induction s with
  | nil =>
    show (if m ∈ [n] then [n] else [m]) = [m]
    split
    · next h => rw [List.mem_singleton.1 h]
    · rfl
  | cons l s ih =>
    rw [Sets.with]
    split
    · rfl
    · rw [Sets.find, Sets.find, ih]

section
variable {R V Q : Type} [Group R] [AddCommGroup V] [DistribMulAction R V]

theorem names_move (g : Pose R V) (b : Body R V Q) : (b.move g).names = b.names := by
  cases b
  rfl

theorem namesAll_move (g : Pose R V) (bs : List (Body R V Q)) : namesAll (bs.map (Body.move g)) = namesAll bs := by
  induction bs with
  | nil => rfl
  | cons b bs ih => rw [List.map_cons, namesAll_cons, namesAll_cons, names_move, ih]

theorem Body.names_eq (b : Body R V Q) : b.names = b.name :: namesAll b.bodies := by
  cases b
  rfl

theorem name_mem_names {x b : Body R V Q} (h : x ∈ b.all) : x.name ∈ b.names := List.mem_map_of_mem h

theorem name_mem_namesAll {x b : Body R V Q} {bs : List (Body R V Q)} (hb : b ∈ bs) (h : x ∈ b.all) : x.name ∈ namesAll bs := List.mem_map_of_mem (mem_allAll.2 ⟨b, hb, h⟩)

/-- What is to be shown of the result for a list of bodies. -/
def Named (bs : List (Body R V Q)) (out : List (Body R V Q)) (new : Sets) : Prop := ∀ b ∈ bs, ∀ x ∈ b.all, ∀ e ∈ x.items, HoldsIn out (joined (new.find x.name)) e

theorem Out.mem_bodies {o : Out R V Q} {os : List (Out R V Q)} {y : Body R V Q} (ho : o ∈ os) (hy : y ∈ o.all) : y ∈ allAll (Out.bodies os) := by
  induction os with
  | nil => simp at ho
  | cons a os ih =>
    cases a with
    | body b =>
      rw [Out.bodies, allAll, List.mem_append]
      rcases List.mem_cons.1 ho with rfl | ho
      · exact .inl hy
      · exact .inr (ih ho)
    | site e =>
      rw [Out.bodies]
      rcases List.mem_cons.1 ho with rfl | ho
      · simp [Out.all] at hy
      · exact ih ho

/-- The result of one body. -/
def Good (f : Body R V Q → Sets → Out R V Q × Sets) (b : Body R V Q) : Prop :=
  ∀ s : Sets, (∀ l ∈ s, ∀ n ∈ l, n ∉ b.names) → ∃ new, (f b s).2 = s ++ new ∧ (∀ l ∈ new, ∀ n ∈ l, n ∈ b.names) ∧ Named [b] (f b s).1.all new

theorem each_named {f : Body R V Q → Sets → Out R V Q × Sets} : ∀ (bs : List (Body R V Q)) (s : Sets), (∀ b ∈ bs, Good f b) → (namesAll bs).Nodup → (∀ l ∈ s, ∀ n ∈ l, n ∉ namesAll bs) →
    ∃ new, (each f bs s).2 = s ++ new ∧ (∀ l ∈ new, ∀ n ∈ l, n ∈ namesAll bs) ∧ Named bs (allAll (Out.bodies (each f bs s).1)) new := by
  intro bs
  induction bs with
  | nil => exact fun s _ _ _ => ⟨[], by simp [each], by simp, by simp [Named]⟩
  | cons b bs ih =>
    intro s hf hn hs
    rw [namesAll_cons] at hn hs ⊢
    obtain ⟨n1, n2, n3⟩ := List.nodup_append.1 hn
    obtain ⟨new1, e1, m1, h1⟩ := hf b (by simp) s fun l hl n hn h => hs l hl n hn (List.mem_append_left _ h)
    have hs2 : ∀ l ∈ (f b s).2, ∀ n ∈ l, n ∉ namesAll bs := by
      rw [e1]
      intro l hl n hn h
      rcases List.mem_append.1 hl with hl | hl
      · exact hs l hl n hn (List.mem_append_right _ h)
      · exact n3 n (m1 l hl n hn) n h rfl
    obtain ⟨new2, e2, m2, h2⟩ := ih (f b s).2 (fun c hc => hf c (List.mem_cons_of_mem _ hc)) n2 hs2
    refine ⟨new1 ++ new2, ?_, ?_, ?_⟩
    · rw [each]
      simp only
      rw [e2, e1, List.append_assoc]
    · intro l hl n hn
      rcases List.mem_append.1 hl with hl | hl
      · exact List.mem_append_left _ (m1 l hl n hn)
      · exact List.mem_append_right _ (m2 l hl n hn)
    · intro c hc x hx e he
      rw [each]
      simp only
      rcases List.mem_cons.1 hc with rfl | hc
      · rw [find_append_left]
        · obtain ⟨y, hy, h⟩ := h1 c (by simp) x hx e he
          exact ⟨y, Out.mem_bodies List.mem_cons_self hy, h⟩
        · intro l hl h
          exact n3 x.name (name_mem_names hx) x.name (m2 l hl _ h) rfl
      · rw [find_append_right]
        · obtain ⟨y, hy, h⟩ := h2 c hc x hx e he
          refine ⟨y, ?_, h⟩
          cases (f b s).1 with
          | body z =>
            rw [Out.bodies, allAll]
            exact List.mem_append_right _ hy
          | site z => exact hy
        · intro l hl h
          exact n3 x.name (m1 l hl _ h) x.name (name_mem_namesAll hc hx) rfl

theorem holds_top (n : String) (p : Pose R V) {i : List (Item R V Q)} (bs : List (Body R V Q)) {e : Item R V Q} (he : e ∈ i) : HoldsIn (Body.mk n p i bs).all n e :=
  ⟨⟨n, p, i, bs⟩, by rw [Body.all]; exact List.mem_cons_self, rfl, e, he, rfl, rfl⟩

theorem joined_singleton (n : String) : joined [n] = n := rfl

/-- A body that is not merged with another one keeps its name and its elements, and the bodies in it become what they become. -/
theorem rest_named {loc : String → Pose R V} {k : ℕ} (acc : Pose R V) {b : Body R V Q} (hb : hasMass b.items = true ∨ b.bodies.length ≠ 1) (hf : ∀ c ∈ b.bodies, Good (sanitize loc k 1) c) (hn : (namesAll b.bodies).Nodup) (s : Sets)
    (hs : ∀ l ∈ s, ∀ n ∈ l, n ∉ namesAll b.bodies) : ∃ new, (sanitize loc (k + 1) acc b s).2 = s ++ new ∧ (∀ l ∈ new, ∀ n ∈ l, n ∈ namesAll b.bodies) ∧
      Named b.bodies (sanitize loc (k + 1) acc b s).1.all new ∧ ∀ e ∈ b.items, HoldsIn (sanitize loc (k + 1) acc b s).1.all b.name e := by
  have hall : ∀ (n : String) p i (bs : List (Body R V Q)) {y}, y ∈ allAll bs → y ∈ (Body.mk n p i bs).all := by
    intro n p i bs y hy
    rw [Body.all]
    exact List.mem_cons_of_mem _ hy
  rw [sanitize]
  by_cases hm : hasMass b.items = true
  · rw [if_pos hm]
    obtain ⟨new, e1, m1, h1⟩ := each_named b.bodies s hf hn hs
    refine ⟨new, e1, m1, ?_, ?_⟩
    · intro c hc x hx e he
      obtain ⟨y, hy, h⟩ := h1 c hc x hx e he
      exact ⟨y, hall _ _ _ _ hy, h⟩
    · intro e he
      exact holds_top _ _ _ (List.mem_append_left _ he)
  · rw [if_neg hm]
    have hl : b.bodies.length ≠ 1 := hb.resolve_left hm
    split
    · next hb0 =>
      refine ⟨[], by simp, by simp, by simp [Named, hb0], ?_⟩
      intro e he
      unfold leaf
      rw [if_neg (fun h => by rw [h] at he; simp at he)]
      exact holds_top _ _ _ (List.mem_append_left _ he)
    · next c hb1 =>
      rw [hb1] at hl
      exact absurd rfl hl
    · next c d bs hb2 =>
      rw [hb2] at hf hn hs ⊢
      obtain ⟨new, e1, m1, h1⟩ := each_named (c :: d :: bs) s hf hn hs
      refine ⟨new, e1, m1, ?_, ?_⟩
      · intro c hc x hx e he
        obtain ⟨y, hy, h⟩ := h1 c hc x hx e he
        exact ⟨y, hall _ _ _ _ hy, h⟩
      · intro e he
        exact holds_top _ _ _ (List.mem_append_left _ (List.mem_cons_of_mem _ he))

theorem Single.child {b c : Body R V Q} (h : Single b) (hc : c ∈ b.bodies) : Single c := fun x hx => h x (mem_all.2 (.inr ⟨c, hc, hx⟩))

theorem Single.move {b : Body R V Q} (h : Single b) (g : Pose R V) : Single (b.move g) := by
  intro x hx
  rw [Body.move_all, List.mem_cons] at hx
  rcases hx with rfl | hx
  · exact h b (by simp [Body.all_eq])
  · exact h x (by rw [Body.all_eq]; exact List.mem_cons_of_mem _ hx)

theorem move_mem (g : Pose R V) {x d : Body R V Q} (h : x ∈ d.all) : ∃ x' ∈ (d.move g).all, x'.name = x.name ∧ x'.items = x.items := by
  rw [Body.all_eq, List.mem_cons] at h
  rw [Body.move_all]
  rcases h with rfl | h
  · exact ⟨_, List.mem_cons_self, rfl, rfl⟩
  · exact ⟨x, List.mem_cons_of_mem _ h, rfl, rfl⟩

theorem move_item_name (g : Pose R V) (e : Item R V Q) : (e.move g).name = e.name := by
  unfold Item.move
  split <;> rfl

theorem sanitize_named {loc : String → Pose R V} (k : ℕ) : ∀ b : Body R V Q, b.all.length ≤ k → b.names.Nodup → Single b → Good (sanitize loc k 1) b := by
  induction k using Nat.strong_induction_on with
  | _ k ih =>
    intro b hk hn hs s hd
    have hpos : 0 < b.all.length := by rw [Body.all_eq]; simp
    obtain ⟨k, rfl⟩ : ∃ j, k = j + 1 := ⟨k - 1, by omega⟩
    rw [Body.names_eq] at hn hd
    obtain ⟨hn1, hn2⟩ := List.nodup_cons.1 hn
    have hsub : ∀ c ∈ b.bodies, c.names.Nodup := by
      intro c hc
      obtain ⟨l1, l2, hl⟩ := List.append_of_mem hc
      rw [hl, namesAll_append, namesAll_cons] at hn2
      exact (List.nodup_append.1 (List.nodup_append.1 hn2).2.1).1
    by_cases hb : hasMass b.items = true ∨ b.bodies.length ≠ 1
    · obtain ⟨new, e1, m1, h1, h2⟩ := rest_named (loc := loc) (k := k) 1 hb
        (fun c hc => ih k (by omega) c (by have := child_length hc; omega) (hsub c hc) (hs.child hc)) hn2 s (fun l hl n hn h => hd l hl n hn (List.mem_cons_of_mem _ h))
      refine ⟨new, e1, fun l hl n hn => by rw [Body.names_eq]; exact List.mem_cons_of_mem _ (m1 l hl n hn), ?_⟩
      intro c hc x hx e he
      rw [List.mem_singleton] at hc
      subst hc
      rcases mem_all.1 hx with rfl | ⟨d, hd', hx⟩
      · rw [find_absent (fun l hl h => hn1 (m1 l hl _ h))]
        rw [joined_singleton]
        exact h2 e he
      · exact h1 d hd' x hx e he
    · obtain ⟨hm, hl⟩ := not_or.1 hb
      have hl : b.bodies.length = 1 := by simpa using hl
      obtain ⟨c, hc⟩ := List.length_eq_one_iff.1 hl
      have hcb : c ∈ b.bodies := by simp [hc]
      have hm' : hasMass b.items = false := by simpa using hm
      have hw : Sets.with (fun l => l ++ [c.name]) b.name s = s ++ [[b.name, c.name]] := with_absent fun l hl h => hd l hl _ h List.mem_cons_self
      have hfb : Sets.find b.name (s ++ [[b.name, c.name]]) = [b.name, c.name] := by
        rw [find_append_right fun l hl h => hd l hl _ h List.mem_cons_self]
        simp [Sets.find]
      have hstep : sanitize loc (k + 1) 1 b s = sanitize loc k (loc c.name * 1) ⟨joined [b.name, c.name], b.pose, b.items ++ c.items.map (Item.move (loc c.name * 1)), c.bodies.map (Body.move (loc c.name * 1))⟩
          (s ++ [[b.name, c.name]]) := by
        rw [sanitize, if_neg hm, hc]
        simp only
        rw [merge]
        simp only
        rw [hw, hfb]
      have hlc := child_length hcb
      have hposc : 0 < c.all.length := by rw [Body.all_eq]; simp
      obtain ⟨j, rfl⟩ : ∃ j, k = j + 1 := ⟨k - 1, by omega⟩
      have hcn : namesAll b.bodies = c.name :: namesAll c.bodies := by
        rw [hc, namesAll_cons, Body.names_eq]
        simp [namesAll, allAll]
      rw [hcn] at hn1 hn2 hd
      obtain ⟨hc1, hc2⟩ := List.nodup_cons.1 hn2
      have hsubc : ∀ d ∈ c.bodies, d.names.Nodup := by
        intro d hd
        obtain ⟨l1, l2, hl⟩ := List.append_of_mem hd
        rw [hl, namesAll_append, namesAll_cons] at hc2
        exact (List.nodup_append.1 (List.nodup_append.1 hc2).2.1).1
      have hsing := hs b (by simp [Body.all_eq]) hm' c hc
      obtain ⟨new, e1, m1, h1, h2⟩ := rest_named (loc := loc) (k := j) (loc c.name * 1)
        (b := ⟨joined [b.name, c.name], b.pose, b.items ++ c.items.map (Item.move (loc c.name * 1)), c.bodies.map (Body.move (loc c.name * 1))⟩)
        (by
          rcases hsing with h | h
          · left
            show hasMass (b.items ++ _) = true
            rw [hasMass_append, hasMass_move, h, Bool.or_true]
          · right
            show (List.map _ c.bodies).length ≠ 1
            rwa [List.length_map])
        (by
          intro d hd
          obtain ⟨d, hd', rfl⟩ := List.mem_map.1 (show d ∈ c.bodies.map (Body.move (loc c.name * 1)) from hd)
          have := child_length hd'
          exact ih j (by omega) _ (by rw [move_all_length]; omega) (by rw [names_move]; exact hsubc d hd') (((hs.child hcb).child hd').move _))
        (by
          show (namesAll (c.bodies.map _)).Nodup
          rw [namesAll_move]
          exact hc2)
        (s ++ [[b.name, c.name]])
        (by
          show ∀ l ∈ s ++ [[b.name, c.name]], ∀ n ∈ l, n ∉ namesAll (c.bodies.map _)
          rw [namesAll_move]
          intro l hl n hn h
          rcases List.mem_append.1 hl with hl | hl
          · exact hd l hl n hn (List.mem_cons_of_mem _ (List.mem_cons_of_mem _ h))
          · rw [List.mem_singleton] at hl
            subst hl
            simp only [List.mem_cons, List.not_mem_nil, or_false] at hn
            rcases hn with rfl | rfl
            · exact hn1 (List.mem_cons_of_mem _ h)
            · exact hc1 h)
      have m1' : ∀ l ∈ new, ∀ n ∈ l, n ∈ namesAll c.bodies := by
        intro l hl n hn
        have := m1 l hl n hn
        rwa [show (Body.mk (joined [b.name, c.name]) b.pose (b.items ++ c.items.map (Item.move (loc c.name * 1))) (c.bodies.map (Body.move (loc c.name * 1)))).bodies = c.bodies.map (Body.move (loc c.name * 1)) from rfl,
          namesAll_move] at this
      have hfind : ∀ n, n = b.name ∨ n = c.name → Sets.find n ([[b.name, c.name]] ++ new) = [b.name, c.name] := by
        intro n hn
        rw [List.singleton_append, Sets.find, if_pos (by simpa using hn)]
      refine ⟨[[b.name, c.name]] ++ new, by rw [hstep, e1, List.append_assoc], ?_, ?_⟩
      · intro l hl n hn
        rw [Body.names_eq, hcn]
        rcases List.mem_append.1 hl with hl | hl
        · rw [List.mem_singleton] at hl
          subst hl
          simp only [List.mem_cons, List.not_mem_nil, or_false] at hn
          rcases hn with rfl | rfl <;> simp
        · exact List.mem_cons_of_mem _ (List.mem_cons_of_mem _ (m1' l hl n hn))
      · intro b' hb' x hx e he
        rw [List.mem_singleton] at hb'
        subst hb'
        rw [hstep]
        rcases mem_all.1 hx with rfl | ⟨d, hd', hx⟩
        · rw [hfind _ (.inl rfl)]
          exact h2 e (List.mem_append_left _ he)
        · rw [hc, List.mem_singleton] at hd'
          subst hd'
          rcases mem_all.1 hx with rfl | ⟨d', hd', hx⟩
          · rw [hfind _ (.inr rfl)]
            obtain ⟨y, hy, hyn, e', he', k1, k2⟩ := h2 _ (List.mem_append_right _ (List.mem_map_of_mem he))
            exact ⟨y, hy, hyn, e', he', k1.trans (move_kind _ _), k2.trans (move_item_name _ _)⟩
          · have hxn : x.name ∈ namesAll d.bodies := name_mem_namesAll hd' hx
            rw [List.singleton_append, Sets.find, if_neg]
            · obtain ⟨x', hx', en, ei⟩ := move_mem (loc d.name * 1) hx
              have := h1 _ (List.mem_map_of_mem hd') x' hx' e (by rw [ei]; exact he)
              rwa [en] at this
            · simp only [List.mem_cons, List.not_mem_nil, or_false, not_or]
              refine ⟨?_, ?_⟩
              · intro h
                exact hn1 (List.mem_cons_of_mem _ (h ▸ hxn))
              · intro h
                exact hc1 (h ▸ hxn)

end

end Simox.Mjc
