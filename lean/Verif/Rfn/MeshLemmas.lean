import Verif.Rfn.Lemmas

namespace Simox.Rfn

open Classical

/-- The indices of a face are those of vertices. -/
def In (vs : List V3) (f : Face) : Prop := f.id1 < vs.length ∧ f.id2 < vs.length ∧ f.id3 < vs.length

theorem In.append {vs : List V3} {f : Face} (h : In vs f) (ws : List V3) : In (vs ++ ws) f := by
  obtain ⟨h1, h2, h3⟩ := h
  unfold In
  rw [List.length_append]
  exact ⟨by omega, by omega, by omega⟩

theorem getD_append {vs : List V3} {i : Nat} (h : i < vs.length) (ws : List V3) :
    (vs ++ ws).getD i 0 = vs.getD i 0 := by
  simp [List.getD, List.getElem?_append_left h]

theorem triOf_append {vs : List V3} {f : Face} (h : In vs f) (ws : List V3) :
    triOf (vs ++ ws) f = triOf vs f := by
  obtain ⟨h1, h2, h3⟩ := h
  unfold triOf
  rw [getD_append h1, getD_append h2, getD_append h3]

theorem map_triOf_append {vs : List V3} {l : List Face} (h : ∀ f ∈ l, In vs f) (ws : List V3) :
    l.map (triOf (vs ++ ws)) = l.map (triOf vs) :=
  List.map_congr_left fun f hf => triOf_append (h f hf) ws

theorem corners_eq {vs : List V3} {f : Face} (h : In vs f) :
    corners vs f = some ((triOf vs f).a, (triOf vs f).b, (triOf vs f).c) := by
  obtain ⟨h1, h2, h3⟩ := h
  unfold corners triOf
  simp [List.getD, List.getElem?_eq_getElem h1, List.getElem?_eq_getElem h2, List.getElem?_eq_getElem h3]

theorem getD_new (vs : List V3) (v : V3) : (vs ++ [v]).getD vs.length 0 = v := by
  simp [List.getD]

/-- What halving a face does. -/
theorem halve_spec (m : Mesh) (i : Nat) (f : Face) (hf : In m.vertices f) (hi : i < m.faces.length) :
    ∃ v f1 f2, halve m i f (triOf m.vertices f).a (triOf m.vertices f).b (triOf m.vertices f).c =
        ⟨m.vertices ++ [v], m.faces.set i f1 ++ [f2]⟩ ∧ In (m.vertices ++ [v]) f1 ∧ In (m.vertices ++ [v]) f2 ∧
      Halves (triOf m.vertices f) (triOf (m.vertices ++ [v]) f1) (triOf (m.vertices ++ [v]) f2) := by
  obtain ⟨t, ht⟩ : ∃ t, t = triOf m.vertices f := ⟨_, rfl⟩
  have hl : ∀ v : V3, (m.vertices ++ [v]).length = m.vertices.length + 1 := by simp
  obtain ⟨h1, h2, h3⟩ := hf
  have ea : t.a = m.vertices.getD f.id1 0 := by rw [ht]; rfl
  have eb : t.b = m.vertices.getD f.id2 0 := by rw [ht]; rfl
  have ec : t.c = m.vertices.getD f.id3 0 := by rw [ht]; rfl
  have en : t.normal = f.normal := by rw [ht]; rfl
  have hset : ∀ f1 f2 : Face, (m.faces ++ [f2]).set i f1 = m.faces.set i f1 ++ [f2] := fun f1 f2 =>
    List.set_append_left _ _ hi
  rw [← ht]
  unfold halve
  dsimp only
  simp only [norm3_sub, ge_iff_le, dist3_le]
  by_cases c1 : sq3 t.b t.c ≤ sq3 t.a t.b ∧ sq3 t.a t.c ≤ sq3 t.a t.b
  · rw [if_pos c1]
    refine ⟨mid t.a t.b, { f with id2 := m.vertices.length }, ⟨m.vertices.length, f.id2, f.id3, f.normal⟩, ?_, ?_, ?_, ?_⟩
    · rw [hset]; rfl
    · unfold In; rw [hl]; dsimp only; omega
    · unfold In; rw [hl]; dsimp only; omega
    · have := Halves.ab t c1.1 c1.2
      unfold triOf
      dsimp only
      rw [getD_new, getD_append h1, getD_append h2, getD_append h3, ← ea, ← eb, ← ec, ← en]
      exact this
  rw [if_neg c1]
  by_cases c2 : sq3 t.a t.b ≤ sq3 t.b t.c ∧ sq3 t.a t.c ≤ sq3 t.b t.c
  · rw [if_pos c2]
    refine ⟨mid t.b t.c, { f with id3 := m.vertices.length }, ⟨f.id1, m.vertices.length, f.id3, f.normal⟩, ?_, ?_, ?_, ?_⟩
    · rw [hset]; rfl
    · unfold In; rw [hl]; dsimp only; omega
    · unfold In; rw [hl]; dsimp only; omega
    · have := Halves.bc t c2.1 c2.2
      unfold triOf
      dsimp only
      rw [getD_new, getD_append h1, getD_append h2, getD_append h3, ← ea, ← eb, ← ec, ← en]
      exact this
  rw [if_neg c2]
  have c3 : sq3 t.a t.b ≤ sq3 t.a t.c ∧ sq3 t.b t.c ≤ sq3 t.a t.c := by
    rcases le_total (sq3 t.a t.b) (sq3 t.a t.c) with g1 | g1 <;>
      rcases le_total (sq3 t.b t.c) (sq3 t.a t.c) with g2 | g2 <;>
      rcases le_total (sq3 t.a t.b) (sq3 t.b t.c) with g3 | g3
    · exact ⟨g1, g2⟩
    · exact ⟨g1, g2⟩
    · exact absurd ⟨g3, g2⟩ c2
    · exact absurd ⟨g3, g2.trans g3⟩ c1
    · exact ⟨g3.trans g2, g2⟩
    · exact absurd ⟨g3, g1⟩ c1
    · exact absurd ⟨g3, g2⟩ c2
    · exact absurd ⟨g3, g1⟩ c1
  refine ⟨mid t.c t.a, { f with id1 := m.vertices.length }, ⟨f.id1, f.id2, m.vertices.length, f.normal⟩, ?_, ?_, ?_, ?_⟩
  · rw [hset]; rfl
  · unfold In; rw [hl]; dsimp only; omega
  · unfold In; rw [hl]; dsimp only; omega
  · have := Halves.ca t c3.1 c3.2
    unfold triOf
    dsimp only
    rw [getD_new, getD_append h1, getD_append h2, getD_append h3, ← ea, ← eb, ← ec, ← en]
    exact this

theorem valid_iff (m : Mesh) : Valid m ↔ ∀ f ∈ m.faces, In m.vertices f := Iff.rfl

/-- One call, unfolded. -/
theorem split_succ {d : ℝ} {n : Nat} {m : Mesh} {i : Nat} {f : Face} (hf : In m.vertices f)
    (hi : m.faces[i]? = some f) :
    checkAndSplitVertex d (n + 1) m i =
      if Long d (triOf m.vertices f) then
        let m' := halve m i f (triOf m.vertices f).a (triOf m.vertices f).b (triOf m.vertices f).c
        match checkAndSplitVertex d n m' (m'.faces.length - 1) with
        | .ok m'' => checkAndSplitVertex d n m'' i
        | r => r
      else .ok m := by
  conv_lhs => unfold checkAndSplitVertex
  rw [hi]
  dsimp only
  rw [corners_eq hf]
  dsimp only
  simp only [norm3_sub]
  by_cases h : Long d (triOf m.vertices f)
  · rw [if_pos h]
    unfold Long at h
    rw [if_pos h]
    cases checkAndSplitVertex d n (halve m i f (triOf m.vertices f).a (triOf m.vertices f).b (triOf m.vertices f).c)
      ((halve m i f (triOf m.vertices f).a (triOf m.vertices f).b (triOf m.vertices f).c).faces.length - 1) <;> rfl
  · rw [if_neg h]
    unfold Long at h
    rw [if_neg h]

theorem pot_nonneg (t : Tri) : 0 ≤ pot t := by
  unfold pot
  have h1 := sq3_nonneg t.a t.b
  have h2 := sq3_nonneg t.b t.c
  have h3 := sq3_nonneg t.a t.c
  linarith

theorem split_ok {d : ℝ} (hd : 0 < d) : ∀ (n : Nat) (m : Mesh) (i : Nat) (f : Face), Valid m →
    m.faces[i]? = some f → pot (triOf m.vertices f) ≤ n * (d ^ 2 / 2) →
    ∃ vs f' fs, checkAndSplitVertex d (n + 1) m i = .ok ⟨m.vertices ++ vs, m.faces.set i f' ++ fs⟩ ∧
      Valid ⟨m.vertices ++ vs, m.faces.set i f' ++ fs⟩ ∧
      Cut d (triOf m.vertices f) ((f' :: fs).map (triOf (m.vertices ++ vs))) := by
  intro n
  induction n with
  | zero =>
    intro m i f hv hi hp
    have hf := hv f (List.mem_of_getElem? hi)
    rw [split_succ hf hi]
    have hn : ¬ Long d (triOf m.vertices f) := by
      intro hl
      obtain ⟨hil, _⟩ := List.getElem?_eq_some_iff.mp hi
      obtain ⟨v, f1, f2, _, _, _, hh⟩ := halve_spec m i f hf hil
      have h1 := (pot_halves hd.le hh hl).1
      have h2 := pot_nonneg (triOf (m.vertices ++ [v]) f1)
      have : 0 < d ^ 2 := by positivity
      push_cast at hp
      linarith
    rw [if_neg hn]
    obtain ⟨hil, hfi⟩ := List.getElem?_eq_some_iff.mp hi
    have e : (⟨m.vertices ++ [], m.faces.set i f ++ []⟩ : Mesh) = m := by
      rw [List.append_nil, List.append_nil, ← hfi, List.set_getElem_self]
    refine ⟨[], f, [], by rw [e], by rw [e]; exact hv, ?_⟩
    rw [List.append_nil]
    exact Cut.leaf _ hn
  | succ n ih =>
    intro m i f hv hi hp
    have hf := hv f (List.mem_of_getElem? hi)
    obtain ⟨hil, hfi⟩ := List.getElem?_eq_some_iff.mp hi
    rw [split_succ hf hi]
    by_cases hn : Long d (triOf m.vertices f)
    · rw [if_pos hn]
      obtain ⟨v, f1, f2, he, i1, i2, hh⟩ := halve_spec m i f hf hil
      obtain ⟨p1, p2⟩ := pot_halves hd.le hh hn
      have hb : ∀ x, x ≤ pot (triOf m.vertices f) - d ^ 2 / 2 → x ≤ (n : ℝ) * (d ^ 2 / 2) := by
        intro x hx
        push_cast at hp
        linarith
      rw [he]
      dsimp only
      have hlen : (m.faces.set i f1 ++ [f2]).length - 1 = m.faces.length := by simp
      rw [hlen]
      have hset : ∀ g ∈ m.faces.set i f1, In (m.vertices ++ [v]) g := by
        intro g hg
        rcases List.mem_or_eq_of_mem_set hg with h | rfl
        · exact In.append (hv g h) [v]
        · exact i1
      have hv1 : Valid ⟨m.vertices ++ [v], m.faces.set i f1 ++ [f2]⟩ := by
        intro g hg
        rcases List.mem_append.mp hg with h | h
        · exact hset g h
        · rw [List.mem_singleton.mp h]; exact i2
      obtain ⟨vs2, f2', fs2, r1, r2, r3⟩ := ih ⟨m.vertices ++ [v], m.faces.set i f1 ++ [f2]⟩ m.faces.length f2 hv1
        (by dsimp only; rw [List.getElem?_append_right (by simp)]; simp) (hb _ p2)
      have es : (m.faces.set i f1 ++ [f2]).set m.faces.length f2' ++ fs2 = m.faces.set i f1 ++ (f2' :: fs2) := by
        rw [List.set_append_right _ _ (by simp)]
        simp
      dsimp only at r1 r2 r3
      rw [es] at r1 r2
      rw [r1]
      dsimp only
      have h1i : (m.faces.set i f1 ++ (f2' :: fs2))[i]? = some f1 := by
        rw [List.getElem?_append_left (by simpa using hil)]
        simp [hil]
      have e1 : triOf (m.vertices ++ [v] ++ vs2) f1 = triOf (m.vertices ++ [v]) f1 := triOf_append i1 vs2
      obtain ⟨vs3, f1', fs3, s1, s2, s3⟩ := ih ⟨m.vertices ++ [v] ++ vs2, m.faces.set i f1 ++ (f2' :: fs2)⟩ i f1 r2
        h1i (by dsimp only; rw [e1]; exact hb _ p1)
      dsimp only at s1 s2 s3
      have es2 : (m.faces.set i f1 ++ (f2' :: fs2)).set i f1' ++ fs3 = m.faces.set i f1' ++ ((f2' :: fs2) ++ fs3) := by
        rw [List.set_append_left _ _ (by simpa using hil), List.set_set, List.append_assoc]
      have ev : m.vertices ++ [v] ++ vs2 ++ vs3 = m.vertices ++ (v :: vs2 ++ vs3) := by simp
      rw [es2] at s1 s2
      refine ⟨v :: vs2 ++ vs3, f1', (f2' :: fs2) ++ fs3, ?_, ?_, ?_⟩
      · rw [s1, ev]
      · rw [← ev]; exact s2
      · rw [← ev]
        rw [e1] at s3
        have hin : ∀ g ∈ f2' :: fs2, In (m.vertices ++ [v] ++ vs2) g := fun g hg =>
          r2 g (List.mem_append_right _ hg)
        refine Cut.node _ _ _ _ _ _ hn hh s3 r3 ?_
        rw [← map_triOf_append hin vs3, ← List.map_append]
        refine List.Perm.map _ ?_
        exact List.Perm.cons f1' (List.perm_append_comm (l₁ := f2' :: fs2) (l₂ := fs3))
    · rw [if_neg hn]
      have e : (⟨m.vertices ++ [], m.faces.set i f ++ []⟩ : Mesh) = m := by
        rw [List.append_nil, List.append_nil, ← hfi, List.set_getElem_self]
      refine ⟨[], f, [], by rw [e], by rw [e]; exact hv, ?_⟩
      rw [List.append_nil]
      exact Cut.leaf _ hn

theorem cut_short {d : ℝ} {t : Tri} {l : List Tri} (h : Cut d t l) : ∀ x ∈ l, ¬ Long d x := by
  induction h with
  | leaf t h => intro x hx; rw [List.mem_singleton.mp hx]; exact h
  | node t x y l k r hl hh hx hy hr ihx ihy =>
    intro z hz
    rcases List.mem_append.mp (hr.mem_iff.mp hz) with g | g
    · exact ihx z g
    · exact ihy z g

/-! ## More depth does not change a result -/

theorem split_mono {d : ℝ} : ∀ (n : Nat) (m : Mesh) (i : Nat) (r : Mesh), checkAndSplitVertex d n m i = .ok r →
    checkAndSplitVertex d (n + 1) m i = .ok r := by
  intro n
  induction n with
  | zero => intro m i r h; cases h
  | succ n ih =>
    intro m i r h
    unfold checkAndSplitVertex at h ⊢
    cases hf : m.faces[i]? with
    | none => rw [hf] at h; cases h
    | some f =>
      rw [hf] at h
      dsimp only at h ⊢
      cases hc : corners m.vertices f with
      | none => rw [hc] at h; cases h
      | some v =>
        obtain ⟨v1, v2, v3⟩ := v
        rw [hc] at h
        dsimp only at h ⊢
        by_cases g : norm3 (v1 - v2) > d ∨ norm3 (v2 - v3) > d ∨ norm3 (v1 - v3) > d
        · rw [if_pos g] at h ⊢
          cases hs : checkAndSplitVertex d n (halve m i f v1 v2 v3) ((halve m i f v1 v2 v3).faces.length - 1) with
          | ok m'' =>
            rw [hs] at h
            rw [ih _ _ _ hs]
            exact ih _ _ _ h
          | ub => rw [hs] at h; cases h
          | loop => rw [hs] at h; cases h
        · rw [if_neg g] at h ⊢
          exact h

theorem split_mono' {d : ℝ} {n k : Nat} (hk : n ≤ k) {m : Mesh} {i : Nat} {r : Mesh}
    (h : checkAndSplitVertex d n m i = .ok r) : checkAndSplitVertex d k m i = .ok r := by
  induction hk with
  | refl => exact h
  | step _ ih => exact split_mono _ _ _ _ ih

theorem loop_mono {d : ℝ} {n n' : Nat} (hn : n ≤ n') : ∀ (k k' i : Nat) (m r : Mesh), k ≤ k' →
    splitLoop d n k i m = .ok r → splitLoop d n' k' i m = .ok r := by
  intro k
  induction k with
  | zero =>
    intro k' i m r _ h
    unfold splitLoop at h
    by_cases g : i < m.faces.length
    · rw [if_pos g] at h; cases h
    · rw [if_neg g] at h
      cases k' <;> unfold splitLoop <;> rw [if_neg g] <;> exact h
  | succ k ih =>
    intro k' i m r hk h
    obtain ⟨k', rfl⟩ : ∃ j, k' = j + 1 := ⟨k' - 1, by omega⟩
    unfold splitLoop at h ⊢
    by_cases g : i < m.faces.length
    · rw [if_pos g] at h ⊢
      cases hs : checkAndSplitVertex d n m i with
      | ok m' =>
        rw [hs] at h
        rw [split_mono' hn hs]
        exact ih _ _ _ _ (by omega) h
      | ub => rw [hs] at h; cases h
      | loop => rw [hs] at h; cases h
    · rw [if_neg g] at h ⊢
      exact h

/-! ## The loops -/

theorem loop_short {d : ℝ} {n : Nat} : ∀ (k i : Nat) (m : Mesh), Valid m → m.faces.length ≤ i + k →
    (∀ f ∈ m.faces.drop i, ¬ Long d (triOf m.vertices f)) → splitLoop d (n + 1) k i m = .ok m := by
  intro k
  induction k with
  | zero =>
    intro i m _ hl _
    unfold splitLoop
    rw [if_neg (by omega)]
  | succ k ih =>
    intro i m hv hl hs
    unfold splitLoop
    by_cases g : i < m.faces.length
    · rw [if_pos g]
      have hi : m.faces[i]? = some m.faces[i] := List.getElem?_eq_getElem g
      have hmem : m.faces[i] ∈ m.faces.drop i := by
        rw [List.drop_eq_getElem_cons g]; exact List.mem_cons_self
      rw [split_succ (hv _ (List.getElem_mem g)) hi, if_neg (hs _ hmem)]
      dsimp only
      refine ih (i + 1) m hv (by omega) fun f hf => hs f ?_
      rw [List.drop_eq_getElem_cons g]
      exact List.mem_cons_of_mem _ hf
    · rw [if_neg g]

theorem loop_ok {d : ℝ} (hd : 0 < d) (n : Nat) : ∀ (todo done extra : List Face) (vs : List V3),
    Valid ⟨vs, done ++ todo ++ extra⟩ → (∀ f ∈ todo, pot (triOf vs f) ≤ n * (d ^ 2 / 2)) →
    (∀ f ∈ extra, ¬ Long d (triOf vs f)) →
    ∃ k m' parts, splitLoop d (n + 1) k done.length ⟨vs, done ++ todo ++ extra⟩ = .ok m' ∧ Valid m' ∧
      List.Forall₂ (Cut d) (todo.map (triOf vs)) parts ∧
      (soup m').Perm ((done ++ extra).map (triOf vs) ++ parts.flatten) := by
  intro todo
  induction todo with
  | nil =>
    intro done extra vs hv _ hs
    rw [List.append_nil] at hv ⊢
    refine ⟨extra.length, ⟨vs, done ++ extra⟩, [], loop_short _ _ _ hv (by simp) ?_, hv, List.Forall₂.nil, ?_⟩
    · dsimp only
      rw [List.drop_left]
      exact hs
    · simp [soup]
  | cons f todo ih =>
    intro done extra vs hv hp hs
    have hi : (done ++ f :: todo ++ extra)[done.length]? = some f := by simp
    obtain ⟨ws, f', fs, r1, r2, r3⟩ := split_ok hd n ⟨vs, done ++ f :: todo ++ extra⟩ done.length f hv hi
      (hp f (by simp))
    dsimp only at r1 r2 r3
    have es : (done ++ f :: todo ++ extra).set done.length f' ++ fs = (done ++ [f']) ++ todo ++ (extra ++ fs) := by
      simp
    rw [es] at r1 r2
    have hin : ∀ g ∈ done ++ f :: todo ++ extra, In vs g := hv
    have hfs : ∀ g ∈ fs, ¬ Long d (triOf (vs ++ ws) g) := fun g hg =>
      cut_short r3 _ (List.mem_map_of_mem (List.mem_cons_of_mem _ hg))
    have htodo : ∀ g ∈ todo, In vs g := fun g hg => hin g (by simp [hg])
    have hextra : ∀ g ∈ extra, In vs g := fun g hg => hin g (by simp [hg])
    have hdone : ∀ g ∈ done, In vs g := fun g hg => hin g (by simp [hg])
    obtain ⟨k, m', parts, s1, s2, s3, s4⟩ := ih (done ++ [f']) (extra ++ fs) (vs ++ ws) r2
      (by
        intro g hg
        rw [triOf_append (htodo g hg)]
        exact hp g (List.mem_cons_of_mem _ hg))
      (by
        intro g hg
        rcases List.mem_append.mp hg with h | h
        · rw [triOf_append (hextra g h)]; exact hs g h
        · exact hfs g h)
    refine ⟨k + 1, m', (f' :: fs).map (triOf (vs ++ ws)) :: parts, ?_, s2, ?_, ?_⟩
    · unfold splitLoop
      dsimp only
      rw [if_pos (by simp), r1]
      dsimp only
      rw [List.length_append] at s1
      exact s1
    · rw [List.map_cons]
      refine List.Forall₂.cons r3 ?_
      rw [← map_triOf_append htodo ws]
      exact s3
    · refine s4.trans ?_
      rw [List.flatten_cons, ← List.append_assoc (List.map _ _)]
      refine List.Perm.append_right _ ?_
      rw [← map_triOf_append (fun g hg => (List.mem_append.mp hg).elim (hdone g) (hextra g)) ws, ← List.map_append]
      refine List.Perm.map _ ?_
      rw [List.append_assoc, List.append_assoc]
      refine List.Perm.append_left _ ?_
      exact (List.perm_append_comm (l₁ := [f']) (l₂ := extra ++ fs)).trans (by
        rw [List.append_assoc]
        exact List.Perm.append_left _ (List.perm_append_comm.trans (by simp)))

theorem hasVertex_some {v : V3} : ∀ {vs : List V3} {i : Nat}, hasVertex v vs = some i →
    i < vs.length ∧ vs.getD i 0 = v := by
  intro vs
  induction vs with
  | nil => intro i h; cases h
  | cons w vs ih =>
    intro i h
    unfold hasVertex at h
    by_cases g : w = v
    · rw [if_pos g] at h
      injection h with h
      subst h
      exact ⟨by simp, by simpa [List.getD] using g⟩
    · rw [if_neg g] at h
      cases hj : hasVertex v vs with
      | none => rw [hj] at h; cases h
      | some j =>
        rw [hj] at h
        injection h with h
        subst h
        obtain ⟨a, b⟩ := ih hj
        exact ⟨by simpa using a, by simpa [List.getD] using b⟩

theorem addOnce_spec (vs : List V3) (v : V3) :
    ∃ ws, (addOnce vs v).1 = vs ++ ws ∧ (addOnce vs v).2 < (addOnce vs v).1.length ∧
      (addOnce vs v).1.getD (addOnce vs v).2 0 = v := by
  unfold addOnce
  cases h : hasVertex v vs with
  | none =>
    refine ⟨[v], rfl, by simp, ?_⟩
    simp [List.getD]
  | some i =>
    obtain ⟨a, b⟩ := hasVertex_some h
    exact ⟨[], by simp, a, b⟩

theorem copy_ok (tm : Mesh) : ∀ (l : List Face) (m : Mesh), (∀ f ∈ l, In tm.vertices f) → Valid m →
    ∃ m', copyLoop tm l m = .ok m' ∧ Valid m' ∧ soup m' = soup m ++ l.map (triOf tm.vertices) := by
  intro l
  induction l with
  | nil => intro m _ hv; exact ⟨m, rfl, hv, by simp⟩
  | cons f l ih =>
    intro m hl hv
    have hf := hl f (by simp)
    obtain ⟨t, ht⟩ : ∃ t, t = triOf tm.vertices f := ⟨_, rfl⟩
    obtain ⟨w1, e1, l1, g1⟩ := addOnce_spec m.vertices t.a
    obtain ⟨r1, hr1⟩ : ∃ r, r = addOnce m.vertices t.a := ⟨_, rfl⟩
    rw [← hr1] at e1 l1 g1
    obtain ⟨w2, e2, l2, g2⟩ := addOnce_spec r1.1 t.b
    obtain ⟨r2, hr2⟩ : ∃ r, r = addOnce r1.1 t.b := ⟨_, rfl⟩
    rw [← hr2] at e2 l2 g2
    obtain ⟨w3, e3, l3, g3⟩ := addOnce_spec r2.1 t.c
    obtain ⟨r3, hr3⟩ : ∃ r, r = addOnce r2.1 t.c := ⟨_, rfl⟩
    rw [← hr3] at e3 l3 g3
    have hc : copyFace tm m f = .ok ⟨r3.1, m.faces ++ [⟨r1.2, r2.2, r3.2, f.normal⟩]⟩ := by
      unfold copyFace
      rw [corners_eq hf, ← ht]
      dsimp only
      rw [← hr1, ← hr2, ← hr3]
    have ev : r3.1 = m.vertices ++ (w1 ++ w2 ++ w3) := by
      rw [e3, e2, e1]; simp
    have hv1 : Valid ⟨r3.1, m.faces ++ [⟨r1.2, r2.2, r3.2, f.normal⟩]⟩ := by
      intro g hg
      rcases List.mem_append.mp hg with h | h
      · have := In.append (hv g h) (w1 ++ w2 ++ w3)
        rw [← ev] at this
        exact this
      · rw [List.mem_singleton.mp h]
        refine ⟨?_, ?_, l3⟩
        · show r1.2 < r3.1.length
          rw [e3, e2]; simp; omega
        · show r2.2 < r3.1.length
          rw [e3]; simp; omega
    obtain ⟨m', q1, q2, q3⟩ := ih _ (fun g hg => hl g (List.mem_cons_of_mem _ hg)) hv1
    refine ⟨m', ?_, q2, ?_⟩
    · unfold copyLoop
      rw [hc]
      exact q1
    · rw [q3, List.map_cons, ← ht]
      unfold soup
      dsimp only
      rw [List.map_append, List.append_assoc]
      have h1 : m.faces.map (triOf r3.1) = m.faces.map (triOf m.vertices) := by
        rw [ev]; exact map_triOf_append hv _
      have h2 : triOf r3.1 ⟨r1.2, r2.2, r3.2, f.normal⟩ = t := by
        unfold triOf
        dsimp only
        rw [g3, e3, getD_append l2, g2, e2, List.append_assoc, getD_append l1, g1]
        have : t.normal = f.normal := by rw [ht]; rfl
        rw [← this]
      rw [h1]
      simp [h2]

theorem exists_depth {d : ℝ} (hd : 0 < d) (l : List Tri) : ∃ n : Nat, ∀ t ∈ l, pot t ≤ n * (d ^ 2 / 2) := by
  have hp : 0 < d ^ 2 / 2 := by positivity
  induction l with
  | nil => exact ⟨0, fun t h => by cases h⟩
  | cons t l ih =>
    obtain ⟨n, hn⟩ := ih
    obtain ⟨k, hk⟩ := exists_nat_ge (pot t / (d ^ 2 / 2))
    rw [div_le_iff₀ hp] at hk
    refine ⟨n + k, ?_⟩
    intro x hx
    push_cast
    have hn0 : (0 : ℝ) ≤ n := Nat.cast_nonneg n
    have hk0 : (0 : ℝ) ≤ k := Nat.cast_nonneg k
    rcases List.mem_cons.mp hx with rfl | hx
    · nlinarith
    · have := hn x hx
      nlinarith

/-! ## No end -/

theorem long_half {d : ℝ} (hd : d ≤ 0) {t x y : Tri} (h : Halves t x y) (hl : Long d t) : Long d y := by
  have key : ∀ {p q : V3}, d < dist3 p q → ∀ {u v : V3}, sq3 u v = sq3 p q / 4 → d < dist3 u v := by
    intro p q hpq u v he
    have h1 := dist3_sq p q
    have h2 := dist3_sq u v
    have h3 := dist3_nonneg p q
    have h4 := dist3_nonneg u v
    rcases hd.lt_or_eq with g | g
    · linarith
    · rw [g] at hpq ⊢
      by_contra hc
      have : dist3 u v = 0 := le_antisymm (not_lt.mp hc) h4
      rw [this, he, ← h1] at h2
      nlinarith
  have big : ∀ {p q : V3}, sq3 t.a t.b ≤ sq3 p q → sq3 t.b t.c ≤ sq3 p q → sq3 t.a t.c ≤ sq3 p q →
      d < dist3 p q := by
    intro p q h1 h2 h3
    rw [← dist3_le] at h1 h2 h3
    rcases hl with g | g | g <;> linarith
  cases h with
  | ab h1 h2 => exact .inl (key (big (le_refl _) h1 h2) (sq3_mid_right _ _))
  | bc h1 h2 => exact .inr (.inl (key (big h1 (le_refl _) h2) (sq3_mid_right _ _)))
  | ca h1 h2 =>
    refine .inr (.inr (key (p := t.a) (q := t.c) (big h1 h2 (le_refl _)) ?_))
    dsimp only
    rw [mid_comm, sq3_mid_left]

theorem split_loop {d : ℝ} (hd : d ≤ 0) : ∀ (n : Nat) (m : Mesh) (i : Nat) (f : Face), Valid m →
    m.faces[i]? = some f → Long d (triOf m.vertices f) → checkAndSplitVertex d n m i = .loop := by
  intro n
  induction n with
  | zero => intros; rfl
  | succ n ih =>
    intro m i f hv hi hl
    have hf := hv f (List.mem_of_getElem? hi)
    obtain ⟨hil, hfi⟩ := List.getElem?_eq_some_iff.mp hi
    rw [split_succ hf hi, if_pos hl]
    obtain ⟨v, f1, f2, he, i1, i2, hh⟩ := halve_spec m i f hf hil
    rw [he]
    dsimp only
    have hlen : (m.faces.set i f1 ++ [f2]).length - 1 = m.faces.length := by simp
    rw [hlen]
    have hv1 : Valid ⟨m.vertices ++ [v], m.faces.set i f1 ++ [f2]⟩ := by
      intro g hg
      rcases List.mem_append.mp hg with h | h
      · rcases List.mem_or_eq_of_mem_set h with h | rfl
        · exact In.append (hv g h) [v]
        · exact i1
      · rw [List.mem_singleton.mp h]; exact i2
    rw [ih ⟨m.vertices ++ [v], m.faces.set i f1 ++ [f2]⟩ m.faces.length f2 hv1
      (by dsimp only; rw [List.getElem?_append_right (by simp)]; simp) (long_half hd hh hl)]

theorem loop_loop {d : ℝ} (hd : d ≤ 0) (n : Nat) : ∀ (k i : Nat) (m : Mesh), Valid m →
    (∃ f ∈ m.faces.drop i, Long d (triOf m.vertices f)) → splitLoop d n k i m = .loop := by
  intro k
  induction k with
  | zero =>
    intro i m hv ⟨f, hf, _⟩
    unfold splitLoop
    rw [if_pos]
    by_contra hc
    rw [List.drop_eq_nil_of_le (by omega)] at hf
    cases hf
  | succ k ih =>
    intro i m hv ⟨f, hf, hl⟩
    have g : i < m.faces.length := by
      by_contra hc
      rw [List.drop_eq_nil_of_le (by omega)] at hf
      cases hf
    have hi : m.faces[i]? = some m.faces[i] := List.getElem?_eq_getElem g
    unfold splitLoop
    rw [if_pos g]
    by_cases hlong : Long d (triOf m.vertices m.faces[i])
    · rw [split_loop hd n m i _ hv hi hlong]
    · cases n with
      | zero => rfl
      | succ n =>
        rw [split_succ (hv _ (List.getElem_mem g)) hi, if_neg hlong]
        dsimp only
        refine ih (i + 1) m hv ⟨f, ?_, hl⟩
        rw [List.drop_eq_getElem_cons g] at hf
        rcases List.mem_cons.mp hf with rfl | h
        · exact absurd hl hlong
        · exact h

/-- The refinement ends, and its result does not depend on the bound. -/
theorem refine_cut {d : ℝ} (hd : 0 < d) {tm : Mesh} (hv : Valid tm) :
    ∃ N m' ps, (∀ n ≥ N, refine d n tm = .ok m') ∧ Valid m' ∧ List.Forall₂ (Cut d) (soup tm) ps ∧
      (soup m').Perm ps.flatten := by
  obtain ⟨m1, h1, v1, s1⟩ := copy_ok tm tm.faces ⟨[], []⟩ hv (by intro f hf; cases hf)
  have s1' : soup m1 = soup tm := by rw [s1]; simp [soup]
  obtain ⟨n0, hn0⟩ := exists_depth hd (soup m1)
  obtain ⟨k, m', ps, r1, r2, r3, r4⟩ := loop_ok hd n0 m1.faces [] [] m1.vertices (by simpa using v1)
    (fun f hf => hn0 _ (List.mem_map_of_mem hf)) (by intro f hf; cases hf)
  refine ⟨max (n0 + 1) k, m', ps, ?_, r2, ?_, by simpa using r4⟩
  · intro n hn
    unfold refine
    rw [h1]
    dsimp only
    refine loop_mono (by omega : n0 + 1 ≤ n) k n 0 m1 m' (by omega) ?_
    simpa using r1
  · rw [← s1']; exact r3

theorem refine_unique {d : ℝ} {tm m m' : Mesh} {n k : Nat} (h : refine d n tm = .ok m) (h' : refine d k tm = .ok m') :
    m = m' := by
  unfold refine at h h'
  cases hc : copyLoop tm tm.faces ⟨[], []⟩ with
  | ok c =>
    rw [hc] at h h'
    dsimp only at h h'
    have a := loop_mono (le_max_left n k) _ _ _ _ _ (le_max_left n k) h
    have b := loop_mono (le_max_right n k) _ _ _ _ _ (le_max_right n k) h'
    rw [a] at b
    injection b
  | ub => rw [hc] at h; cases h
  | loop => rw [hc] at h; cases h

theorem corners_none {vs : List V3} {f : Face} (h : ¬ In vs f) : corners vs f = none := by
  unfold corners
  by_cases h1 : f.id1 < vs.length
  · by_cases h2 : f.id2 < vs.length
    · have h3 : ¬ f.id3 < vs.length := fun h3 => h ⟨h1, h2, h3⟩
      simp [List.getElem?_eq_none (not_lt.mp h3)]
    · simp [List.getElem?_eq_none (not_lt.mp h2)]
  · simp [List.getElem?_eq_none (not_lt.mp h1)]

theorem copy_ub (tm : Mesh) : ∀ (l : List Face) (m : Mesh), (∃ f ∈ l, ¬ In tm.vertices f) →
    copyLoop tm l m = .ub := by
  intro l
  induction l with
  | nil => rintro m ⟨f, hf, _⟩; cases hf
  | cons f l ih =>
    rintro m ⟨g, hg, hn⟩
    unfold copyLoop
    by_cases hf : In tm.vertices f
    · have hc : ∃ m', copyFace tm m f = .ok m' := by
        unfold copyFace
        rw [corners_eq hf]
        exact ⟨_, rfl⟩
      obtain ⟨m', hc⟩ := hc
      rw [hc]
      rcases List.mem_cons.mp hg with rfl | hg
      · exact absurd hf hn
      · exact ih m' ⟨g, hg, hn⟩
    · have hc : copyFace tm m f = .ub := by
        unfold copyFace
        rw [corners_none hf]
      rw [hc]

theorem forall_cut_edges {d : ℝ} (hd : 0 < d) {w : V3 → V3 → ℝ} (hw : ∀ x y, w y x = - w x y) {l : List Tri}
    {ps : List (List Tri)} (h : List.Forall₂ (Cut d) l ps) : edgeSum w ps.flatten = edgeSum (parts d w) l := by
  induction h with
  | nil => rfl
  | @cons t p l ps h _ ih =>
    rw [List.flatten_cons, edgeSum_append, ih, cut_edges hd hw h, ← edgeSum_append]
    rfl

theorem maxStep_spec {vs : List V3} {f : Face} (hf : In vs f) (x : ℝ) :
    ∃ y, maxStep vs x f = some y ∧ x ≤ y ∧ (∀ e ∈ (triOf vs f).edges, dist3 e.1 e.2 ≤ y) ∧
      (y = x ∨ ∃ e ∈ (triOf vs f).edges, y = dist3 e.1 e.2) := by
  obtain ⟨t, ht⟩ : ∃ t, t = triOf vs f := ⟨_, rfl⟩
  unfold maxStep
  rw [corners_eq hf, ← ht]
  simp only [Option.map_some, norm3_sub]
  refine ⟨_, rfl, ?_, ?_, ?_⟩
  · split_ifs <;> linarith
  · intro e he
    simp only [Tri.edges, List.mem_cons, List.not_mem_nil, or_false] at he
    rcases he with rfl | rfl | rfl <;> dsimp only <;> try rw [dist3_symm t.c t.a]
    all_goals split_ifs <;> linarith
  · have m1 : (t.a, t.b) ∈ t.edges := by simp [Tri.edges]
    have m2 : (t.b, t.c) ∈ t.edges := by simp [Tri.edges]
    have m3 : (t.c, t.a) ∈ t.edges := by simp [Tri.edges]
    split_ifs
    all_goals first
      | exact .inl rfl
      | exact .inr ⟨_, m1, rfl⟩
      | exact .inr ⟨_, m2, rfl⟩
      | exact .inr ⟨_, m3, dist3_symm _ _⟩

theorem maxLoop_spec (vs : List V3) : ∀ (l : List Face) (x : ℝ), (∀ f ∈ l, In vs f) →
    ∃ y, maxLoop vs l x = some y ∧ x ≤ y ∧ (∀ t ∈ l.map (triOf vs), ∀ e ∈ t.edges, dist3 e.1 e.2 ≤ y) ∧
      (y = x ∨ ∃ t ∈ l.map (triOf vs), ∃ e ∈ t.edges, y = dist3 e.1 e.2) := by
  intro l
  induction l with
  | nil => intro x _; exact ⟨x, rfl, le_refl _, by simp, .inl rfl⟩
  | cons f l ih =>
    intro x hl
    obtain ⟨y, a1, a2, a3, a4⟩ := maxStep_spec (hl f (by simp)) x
    obtain ⟨z, b1, b2, b3, b4⟩ := ih y fun g hg => hl g (List.mem_cons_of_mem _ hg)
    refine ⟨z, by unfold maxLoop; rw [a1]; exact b1, a2.trans b2, ?_, ?_⟩
    · intro t ht e he
      rw [List.map_cons] at ht
      rcases List.mem_cons.mp ht with rfl | ht
      · exact (a3 e he).trans b2
      · exact b3 t ht e he
    · rw [List.map_cons]
      rcases b4 with rfl | ⟨t, ht, e, he, h⟩
      · rcases a4 with h | ⟨e, he, h⟩
        · exact .inl h
        · exact .inr ⟨_, List.mem_cons_self, e, he, h⟩
      · exact .inr ⟨t, List.mem_cons_of_mem _ ht, e, he, h⟩

end Simox.Rfn
