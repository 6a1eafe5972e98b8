import Verif.Tot.PathProps

/-!
# C128: rounded corners make a path smooth; switching points
-/

namespace Simox.Tot

variable {n : ℕ}

open Classical in
/-- The segments of positive length. -/
noncomputable def proper (l : List (Seg n)) : List (Seg n) := l.filter fun g => decide (0 < g.length)

theorem proper_cons_pos {g : Seg n} (h : 0 < g.length) (l : List (Seg n)) : proper (g :: l) = g :: proper l := by
  simp [proper, h]

theorem proper_cons_zero {g : Seg n} (h : g.length = 0) (l : List (Seg n)) : proper (g :: l) = proper l := by
  simp [proper, h]

theorem blend_rounded {a b c : Cfg n} {m : ℝ} (hm : 0 < m) (hR : Rounded (mid a b) b (mid b c)) :
    let seg := circular (mid a b) b (mid b c) m
    0 < seg.length ∧ (∃ d : ℝ, 0 ≤ d ∧ d ≤ 1 / 2 ∧ seg.config 0 = b - d • (b - a)) ∧
      seg.tangent 0 = normalized (b - a) ∧ seg.tangent seg.length = normalized (c - b) := by
  obtain ⟨l1, ⟨d, d0, d1, d2, f1, f2, -, -⟩, g1, g2, -⟩ := C127_blend hR hm
  have h := hR.h1
  rw [sub_mid_right, normalized_smul (by norm_num)] at *
  rw [norm_half] at d1 h
  rw [mid_sub_left, normalized_smul (by norm_num)] at g2
  have n1 : 0 < ‖b - a‖ := by linarith
  refine ⟨l1, ⟨d / ‖b - a‖, by positivity, by rw [div_le_iff₀ n1]; linarith, ?_⟩, g1, g2⟩
  rw [f1, normalized, smul_smul, ← div_eq_mul_inv]

theorem line_facts {start stop : Cfg n} (h : start ≠ stop) : 0 < (Seg.line start stop).length ∧ (Seg.line start stop).config 0 = start ∧
    (Seg.line start stop).config (Seg.line start stop).length = stop ∧ ∀ s, (Seg.line start stop).tangent s = normalized (stop - start) := by
  obtain ⟨-, h2, h3, -⟩ := C127_line h
  exact ⟨norm_pos_iff.2 (sub_ne_zero.2 h.symm), h2, h3, fun s => rfl⟩

theorem Apart.tail {a : Cfg n} {l : List (Cfg n)} (h : Apart (a :: l)) : Apart l := fun _ _ hn => h _ _ hn.cons

theorem build_chain {m : ℝ} (hm : 0 < m) (c2 : Cfg n) (rest : List (Cfg n)) : ∀ (start c1 : Cfg n), Starts start c1 c2 → NoReversal (c1 :: c2 :: rest) →
    Apart (c1 :: c2 :: rest) → ∃ g l, proper (buildSegments m start c1 (c2 :: rest)) = g :: l ∧ g.tangent 0 = normalized (c2 - c1) ∧
      ‖g.config 0 - start‖ ≤ 0.000001 ∧ (g :: l).IsChain Continues ∧ (start = c1 → g.config 0 = c1) := by
  induction rest generalizing c2 with
  | nil =>
      intro start c1 hs _ ha
      have hd : 0.000002 < ‖c2 - c1‖ := ha c1 c2 ⟨[], [], rfl⟩
      obtain ⟨e, h0, h1, rfl⟩ := hs
      have hsub : c2 - (c1 + e • (c2 - c1)) = (1 - e) • (c2 - c1) := by module
      have hne : c1 + e • (c2 - c1) ≠ c2 := by
        intro h
        have : ‖(1 - e) • (c2 - c1)‖ = 0 := by rw [← hsub, h, sub_self, norm_zero]
        rw [norm_smul, Real.norm_of_nonneg (by linarith)] at this
        nlinarith
      obtain ⟨l1, l2, l3, l4⟩ := line_facts hne
      refine ⟨_, [], by rw [buildSegments, proper_cons_pos l1]; rfl, ?_, ?_, ?_, ?_⟩
      · rw [l4, hsub, normalized_smul (by linarith)]
      · rw [l2, sub_self, norm_zero]; norm_num
      · simp
      · intro h; rw [l2, h]
  | cons c3 rest ih =>
      intro start c1 hs hr ha
      have hd : 0.000002 < ‖c2 - c1‖ := ha c1 c2 ⟨[], c3 :: rest, rfl⟩
      have hd2 : 0.000002 < ‖c3 - c2‖ := ha c2 c3 ⟨[c1], rest, rfl⟩
      obtain ⟨-, -, b3, -⟩ := blend_facts hm hr.head
      obtain ⟨g, l, e1, e2, e3, e4, -⟩ := ih c3 _ c2 b3 hr.tail ha.tail
      simp only [buildSegments]
      rw [if_pos hm]
      obtain ⟨e, h0, h1, hse⟩ := hs
      -- the line to the blend
      have hline : ∀ d : ℝ, 0 ≤ d → d ≤ 1 / 2 → (0.000001 < ‖c2 - d • (c2 - c1) - start‖ ∨ start = c1) →
          0.000001 < ‖c2 - d • (c2 - c1) - start‖ ∧ start ≠ c2 - d • (c2 - c1) ∧ normalized (c2 - d • (c2 - c1) - start) = normalized (c2 - c1) := by
        intro d d0 d1 h
        have hsub : c2 - d • (c2 - c1) - start = (1 - d - e) • (c2 - c1) := by rw [hse]; module
        have hk : 0 ≤ 1 - d - e := by linarith
        have hn : ‖c2 - d • (c2 - c1) - start‖ = (1 - d - e) * ‖c2 - c1‖ := by rw [hsub, norm_smul, Real.norm_of_nonneg hk]
        have hbig : 0.000001 < ‖c2 - d • (c2 - c1) - start‖ := by
          rcases h with h | h
          · exact h
          · have hsub' : c2 - d • (c2 - c1) - start = (1 - d) • (c2 - c1) := by rw [h]; module
            rw [hsub', norm_smul, Real.norm_of_nonneg (by linarith)]
            nlinarith
        refine ⟨hbig, ?_, ?_⟩
        · intro h'
          rw [← h', sub_self, norm_zero] at hbig; norm_num at hbig
        · rw [hsub]
          apply normalized_smul
          rcases hk.lt_or_eq with h' | h'
          · exact h'
          · exfalso; rw [hn, ← h', zero_mul] at hbig; norm_num at hbig
      by_cases hR : Rounded (mid c1 c2) c2 (mid c2 c3)
      · obtain ⟨r1, ⟨d, d0, d1, r2⟩, r3, r4⟩ := blend_rounded hm hR
        generalize circular (mid c1 c2) c2 (mid c2 c3) m = b at *
        have hch : (b :: g :: l).IsChain Continues := by
          refine List.isChain_cons_cons.2 ⟨⟨e3, ?_⟩, e4⟩
          rw [e2, r4, sub_self, norm_zero]; norm_num
        by_cases hl : 0.000001 < ‖b.config 0 - start‖
        · rw [if_pos hl]
          rw [r2] at hl
          obtain ⟨k1, k2, k3⟩ := hline d d0 d1 (Or.inl hl)
          rw [r2]
          obtain ⟨l1, l2, l3, l4⟩ := line_facts k2
          refine ⟨_, b :: g :: l, by rw [List.cons_append, proper_cons_pos l1, List.nil_append, proper_cons_pos r1, e1], by rw [l4, k3], by rw [l2, sub_self, norm_zero]; norm_num, ?_, fun h => by rw [l2, h]⟩
          refine List.isChain_cons_cons.2 ⟨⟨?_, ?_⟩, hch⟩
          · rw [l3, r2, sub_self, norm_zero]; norm_num
          · rw [l4, r3, k3, sub_self, norm_zero]; norm_num
        · rw [if_neg hl]
          refine ⟨b, g :: l, by rw [List.nil_append, proper_cons_pos r1, e1], r3, not_lt.1 hl, hch, ?_⟩
          intro h
          rw [r2] at hl
          exact absurd (hline d d0 d1 (Or.inr h)).1 hl
      · -- no corner
        have hdir : ‖normalized (c2 - mid c1 c2) - normalized (mid c2 c3 - c2)‖ < 0.000001 := by
          by_contra hcon
          refine hR (rounded_of hr.head ?_ ?_ (not_lt.1 hcon))
          · rw [sub_mid_right, norm_half]; linarith
          · rw [mid_sub_left, norm_half]; linarith
        obtain ⟨z1, z2⟩ := C127_no_corner (m := m) (Or.inr (Or.inr hdir))
        rw [sub_mid_right, mid_sub_left, normalized_smul (by norm_num), normalized_smul (by norm_num)] at hdir
        generalize circular (mid c1 c2) c2 (mid c2 c3) m = b at *
        have hbig : 0.000001 < ‖c2 - (0 : ℝ) • (c2 - c1) - start‖ := by
          have hsub : c2 - (0 : ℝ) • (c2 - c1) - start = (1 - e) • (c2 - c1) := by rw [hse]; module
          rw [hsub, norm_smul, Real.norm_of_nonneg (by linarith)]
          nlinarith
        obtain ⟨k1, k2, k3⟩ := hline 0 le_rfl (by norm_num) (Or.inl hbig)
        rw [zero_smul, sub_zero] at k1 k2 k3
        rw [z2, if_pos k1]
        obtain ⟨l1, l2, l3, l4⟩ := line_facts k2
        rw [z2] at e1 e3
        refine ⟨_, g :: l, by rw [List.cons_append, proper_cons_pos l1, List.nil_append, proper_cons_zero z1, z2, e1], by rw [l4, k3], by rw [l2, sub_self, norm_zero]; norm_num, ?_, fun h => by rw [l2, h]⟩
        refine List.isChain_cons_cons.2 ⟨⟨?_, ?_⟩, e4⟩
        · rw [l3]; exact e3
        · rw [l4, k3, e2, norm_sub_rev]; exact hdir

/-- **C128** (smooth): with rounded corners, the segments of the path follow each other without jumps and without changes of
direction, but for millionths; the first begins at the first waypoint. -/
theorem C128_smooth {w : List (Cfg n)} (hw : 2 ≤ w.length) {m : ℝ} (hm : 0 < m) (hr : NoReversal w) (ha : Apart w) :
    let segs := proper ((Path.new w m).segments.map Prod.fst)
    segs.IsChain Continues ∧ ∃ g, segs.head? = some g ∧ some (g.config 0) = w.head? := by
  match w, hw with
  | c1 :: c2 :: rest, hw =>
      obtain ⟨g, l, e1, e2, e3, e4, e5⟩ := build_chain hm c2 rest c1 c1 (starts_self c1 c2) hr ha
      obtain ⟨segs, -, -, h3, -⟩ := C128_lookup hw m
      have hs : (Path.new (c1 :: c2 :: rest) m).segments.map Prod.fst = buildSegments m c1 c1 (c2 :: rest) := by
        rw [new_segments hw]
        show (withPos 0 (buildSegments m c1 c1 (c2 :: rest))).map Prod.fst = _
        generalize buildSegments m c1 c1 (c2 :: rest) = l
        generalize (0 : ℝ) = p
        induction l generalizing p with
        | nil => rfl
        | cons g l ih => simp [withPos, ih]
      intro segs
      have hsegs : segs = g :: l := by rw [← e1, ← hs]
      rw [hsegs]
      exact ⟨e4, g, rfl, by rw [e5 rfl]; rfl⟩

/-! ## Switching points -/

theorem popBack_eq {L : ℝ} {l : List (ℝ × Bool)} (h : l.Pairwise fun a b => a.1 ≤ b.1) : popBack L l = l.filter fun p => decide (p.1 < L) := by
  induction l using List.reverseRecOn with
  | nil => rfl
  | append_singleton l p ih =>
      have h' := List.pairwise_append.1 h
      unfold popBack
      rw [List.reverse_append, List.reverse_singleton, List.singleton_append, List.dropWhile_cons]
      by_cases hp : L ≤ p.1
      · rw [if_pos (by simpa using hp), List.filter_append]
        have := ih h'.1
        unfold popBack at this
        rw [this]
        simp [not_lt.2 hp]
      · rw [if_neg (by simpa using hp)]
        have hall : ∀ q ∈ l, q.1 < L := fun q hq => lt_of_le_of_lt (h'.2.2 q hq p (by simp)) (not_le.1 hp)
        rw [List.reverse_cons, List.reverse_reverse]
        rw [List.filter_eq_self.2]
        intro q hq
        rcases List.mem_append.1 hq with hq | hq
        · simpa using hall q hq
        · simp at hq; subst hq; simpa using hp

/-- Segments with lengths and switching points in range. -/
def Proper (g : Seg n) : Prop :=
  0 ≤ g.length ∧ g.switchingPoints.Pairwise (· ≤ ·) ∧ ∀ t ∈ g.switchingPoints, 0 ≤ t ∧ t < g.length

theorem switching_inv (gs : List (Seg n)) (hg : ∀ g ∈ gs, Proper g) :
    let p := gs.foldl Path.push ⟨0, [], []⟩
    (p.switchingPoints.Pairwise fun a b => a.1 ≤ b.1) ∧ (∀ q ∈ p.switchingPoints, 0 ≤ q.1 ∧ q.1 ≤ p.length) ∧ 0 ≤ p.length ∧
      (∀ x, (x, true) ∈ p.switchingPoints ↔ ∃ pre g post, gs = pre ++ g :: post ∧ x = total pre + g.length) ∧
      (∀ x, (x, false) ∈ p.switchingPoints ↔ ∃ pre g post, gs = pre ++ g :: post ∧ ∃ t ∈ g.switchingPoints, x = total pre + t) ∧
      (gs ≠ [] → ∃ l, p.switchingPoints = l ++ [(p.length, true)] ∧ ∀ q ∈ l, q.1 < p.length) := by
  induction gs using List.reverseRecOn with
  | nil => simp
  | append_singleton gs g ih =>
      have hpl : (gs.foldl Path.push ⟨0, [], []⟩ : Path n).length = total gs := by rw [(foldl_push _ _).1, zero_add]
      obtain ⟨i1, i2, i3, i4, i5, -⟩ := ih fun g hg' => hg g (by simp [hg'])
      obtain ⟨g1, g2, g3⟩ := hg g (by simp)
      intro p
      have hp : p = (gs.foldl Path.push ⟨0, [], []⟩).push g := by simp [p]
      rw [hp]
      generalize hq : gs.foldl Path.push (⟨0, [], []⟩ : Path n) = q at *
      have hlen : (q.push g).length = q.length + g.length := rfl
      have hsw : (q.push g).switchingPoints = popBack (q.length + g.length) (q.switchingPoints ++ g.switchingPoints.map fun s => (q.length + s, false)) ++ [(q.length + g.length, true)] := rfl
      have hsorted : (q.switchingPoints ++ g.switchingPoints.map fun s => (q.length + s, false)).Pairwise fun a b => a.1 ≤ b.1 := by
        rw [List.pairwise_append]
        refine ⟨i1, ?_, ?_⟩
        · rw [List.pairwise_map]
          exact g2.imp fun h => by simpa using h
        · intro a ha b hb
          obtain ⟨t, ht, rfl⟩ := List.mem_map.1 hb
          have := (i2 a ha).2
          have := (g3 t ht).1
          simp only; linarith
      rw [popBack_eq hsorted] at hsw
      have hmem : ∀ r, r ∈ (q.push g).switchingPoints ↔ ((r ∈ q.switchingPoints ∨ ∃ t ∈ g.switchingPoints, (q.length + t, false) = r) ∧ r.1 < q.length + g.length) ∨ r = (q.length + g.length, true) := by
        intro r
        rw [hsw]
        simp only [List.mem_append, List.mem_filter, List.mem_map, decide_eq_true_eq, List.mem_singleton]
      have hsplit : ∀ {P : List (Seg n) → Seg n → Prop}, (∃ pre a post, gs ++ [g] = pre ++ a :: post ∧ P pre a) ↔ (∃ pre a post, gs = pre ++ a :: post ∧ P pre a) ∨ P gs g := by
        intro P
        constructor
        · rintro ⟨pre, a, post, e, h⟩
          rcases List.eq_nil_or_concat post with rfl | ⟨post', b, rfl⟩
          · obtain ⟨rfl, e2⟩ := List.append_inj' e rfl
            simp only [List.cons.injEq, and_true] at e2
            subst e2; exact Or.inr h
          · have e' : gs ++ [g] = (pre ++ a :: post') ++ [b] := by rw [e]; simp
            obtain ⟨e1, -⟩ := List.append_inj' e' rfl
            exact Or.inl ⟨pre, a, post', e1, h⟩
        · rintro (⟨pre, a, post, e, h⟩ | h)
          · exact ⟨pre, a, post ++ [g], by rw [e]; simp, h⟩
          · exact ⟨gs, g, [], rfl, h⟩
      refine ⟨?_, ?_, ?_, ?_, ?_, ?_⟩
      · rw [hsw, List.pairwise_append]
        refine ⟨hsorted.filter _, by simp, ?_⟩
        intro a ha b hb
        simp only [List.mem_filter, decide_eq_true_eq] at ha
        simp only [List.mem_singleton] at hb
        subst hb; exact ha.2.le
      · intro r hr
        rw [hlen]
        rcases (hmem r).1 hr with ⟨h1, h2⟩ | h
        · refine ⟨?_, h2.le⟩
          rcases h1 with h1 | ⟨t, ht, rfl⟩
          · exact (i2 r h1).1
          · have := (g3 t ht).1; simp only; linarith
        · rw [h]; exact ⟨by simp only; linarith, le_rfl⟩
      · rw [hlen]; linarith
      · intro x
        rw [hmem, hsplit (P := fun pre a => x = total pre + a.length)]
        constructor
        · rintro (⟨h1 | ⟨t, -, ht⟩, -⟩ | h)
          · exact Or.inl ((i4 x).1 h1)
          · simp at ht
          · right
            simp only [Prod.mk.injEq, and_true] at h
            rw [← hpl]; exact h
        · rintro (h | h)
          · have hx := (i4 x).2 h
            by_cases h2 : x < q.length + g.length
            · exact Or.inl ⟨Or.inl hx, h2⟩
            · right
              have := (i2 _ hx).2
              simp only at this
              simp only [Prod.mk.injEq, and_true]
              linarith
          · right
            rw [h, ← hpl]
      · intro x
        rw [hmem, hsplit (P := fun pre a => ∃ t ∈ a.switchingPoints, x = total pre + t)]
        constructor
        · rintro (⟨h1 | ⟨t, ht1, ht⟩, -⟩ | h)
          · exact Or.inl ((i5 x).1 h1)
          · right
            simp only [Prod.mk.injEq, and_true] at ht
            exact ⟨t, ht1, by rw [← ht, hpl]⟩
          · simp at h
        · rintro (h | ⟨t, ht, h⟩)
          · have hx := (i5 x).2 h
            refine Or.inl ⟨Or.inl hx, ?_⟩
            obtain ⟨pre, a, post, e, t, ht, rfl⟩ := h
            have ha := hg a (by rw [e]; simp)
            have h1 := (ha.2.2 t ht).2
            have h2 : 0 ≤ total post := List.sum_nonneg (by
              intro y hy
              obtain ⟨b, hb, rfl⟩ := List.mem_map.1 hy
              exact (hg b (by rw [e]; simp [hb])).1)
            have h3 : q.length = total pre + (a.length + total post) := by rw [hpl, e, total_append, total_cons]
            simp only; linarith
          · refine Or.inl ⟨Or.inr ⟨t, ht, by rw [h, hpl]⟩, ?_⟩
            have := (g3 t ht).2
            rw [h, ← hpl]; simp only; linarith
      · intro _
        refine ⟨_, hsw, ?_⟩
        intro r hr
        simp only [List.mem_filter, decide_eq_true_eq] at hr
        rw [hlen]; exact hr.2

theorem proper_line (a b : Cfg n) : Proper (Seg.line a b) := ⟨norm_nonneg _, by simp [Seg.switchingPoints], by simp [Seg.switchingPoints]⟩

theorem proper_blend {a b c : Cfg n} {m : ℝ} (hm : 0 < m) (hr : NoRev a b c) : Proper (circular (mid a b) b (mid b c) m) := by
  by_cases hR : Rounded (mid a b) b (mid b c)
  · obtain ⟨h1, h2, -⟩ := C127_switching hR hm
    exact ⟨(C127_blend hR hm).1.le, h1, h2⟩
  · have h : ‖b - mid a b‖ < 0.000001 ∨ ‖mid b c - b‖ < 0.000001 ∨ ‖normalized (b - mid a b) - normalized (mid b c - b)‖ < 0.000001 := by
      by_contra h
      push Not at h
      exact hR (rounded_of hr h.1 h.2.1 h.2.2)
    have e : circular (mid a b) b (mid b c) m = .arc 0 1 b 0 0 := by
      unfold circular
      by_cases h1 : ‖b - mid a b‖ < 0.000001 ∨ ‖mid b c - b‖ < 0.000001
      · rw [if_pos h1]
      · rw [if_neg h1]
        simp only
        rw [if_pos (by tauto)]
    rw [e]
    have hnil : (Seg.arc 0 1 b 0 0 : Seg n).switchingPoints = [] := by
      have e0 : atan2 0 0 = 0 := Complex.arg_zero
      have e1 : switchingAngle 0 0 = 0 := by unfold switchingAngle; rw [e0, if_neg (lt_irrefl _)]
      have : ((List.finRange n).map fun i => switchingAngle ((0 : Cfg n) i) ((0 : Cfg n) i) * (1 : ℝ)).filter (fun s => decide (s < 0)) = [] := by
        rw [List.filter_eq_nil_iff]
        intro x hx
        obtain ⟨i, -, rfl⟩ := List.mem_map.1 hx
        simp [e1]
      simp only [Seg.switchingPoints]
      rw [this]; simp
    exact ⟨le_rfl, by rw [hnil]; simp, by rw [hnil]; simp⟩

theorem build_proper {m : ℝ} (l : List (Cfg n)) : ∀ (start c1 : Cfg n), NoReversal (c1 :: l) → ∀ g ∈ buildSegments m start c1 l, Proper g := by
  induction l with
  | nil => intro start c1 _ g hg; cases hg
  | cons c2 l ih =>
      intro start c1 hr g hg
      match l with
      | [] =>
          simp only [buildSegments, List.mem_singleton] at hg
          subst hg; exact proper_line _ _
      | c3 :: l =>
          simp only [buildSegments] at hg
          by_cases hm : 0 < m
          · rw [if_pos hm] at hg
            rcases List.mem_append.1 hg with hg | hg
            · split at hg
              · simp only [List.mem_singleton] at hg
                subst hg; exact proper_line _ _
              · cases hg
            · rcases List.mem_cons.1 hg with rfl | hg
              · exact proper_blend hm hr.head
              · exact ih _ _ hr.tail g hg
          · rw [if_neg hm] at hg
            rcases List.mem_cons.1 hg with rfl | hg
            · exact proper_line _ _
            · exact ih _ _ hr.tail g hg

/-- **C128** (switching points): the switching points of a path are the ends of its segments, with the mark of a
discontinuity, and the switching points on its segments, in order and before the end of the path. -/
theorem C128_switching {w : List (Cfg n)} (hw : 2 ≤ w.length) (m : ℝ) (hr : NoReversal w) :
    let p := Path.new w m
    let segs := p.segments.map Prod.fst
    (p.switchingPoints.Pairwise fun a b => a.1 ≤ b.1) ∧ (∀ q ∈ p.switchingPoints, 0 ≤ q.1 ∧ q.1 < p.length) ∧
      (∀ x, (x, true) ∈ p.switchingPoints ↔ x < p.length ∧ ∃ pre g post, segs = pre ++ g :: post ∧ x = total pre + g.length) ∧
      ∀ x, (x, false) ∈ p.switchingPoints ↔ ∃ pre g post, segs = pre ++ g :: post ∧ ∃ t ∈ g.switchingPoints, x = total pre + t := by
  match w, hw with
  | c1 :: c2 :: rest, hw =>
      have hp := build_proper (m := m) (c2 :: rest) c1 c1 hr
      have hs : (Path.new (c1 :: c2 :: rest) m).segments.map Prod.fst = segmentsOf m (c1 :: c2 :: rest) := by
        rw [new_segments hw]
        generalize segmentsOf m (c1 :: c2 :: rest) = l
        generalize (0 : ℝ) = p
        induction l generalizing p with
        | nil => rfl
        | cons g l ih => simp [withPos, ih]
      intro p segs
      have hsegs : segs = segmentsOf m (c1 :: c2 :: rest) := hs
      have hpl : p.length = ((segmentsOf m (c1 :: c2 :: rest)).foldl Path.push ⟨0, [], []⟩).length := by
        show (Path.new (c1 :: c2 :: rest) m).length = _
        unfold Path.new
        rw [if_neg (by simp)]
      have hps : p.switchingPoints = ((segmentsOf m (c1 :: c2 :: rest)).foldl Path.push ⟨0, [], []⟩).switchingPoints.dropLast := by
        show (Path.new (c1 :: c2 :: rest) m).switchingPoints = _
        unfold Path.new
        rw [if_neg (by simp)]
      rw [hsegs, hpl, hps]
      obtain ⟨i1, i2, i3, i4, i5, i6⟩ := switching_inv (segmentsOf m (c1 :: c2 :: rest)) hp
      obtain ⟨l, e, hl⟩ := i6 (segmentsOf_ne_nil hw m)
      generalize (segmentsOf m (c1 :: c2 :: rest)).foldl Path.push (⟨0, [], []⟩ : Path n) = q at *
      rw [e, List.dropLast_concat]
      rw [e] at i1 i2 i4 i5
      refine ⟨(List.pairwise_append.1 i1).1, fun r hr => ⟨(i2 r (by simp [hr])).1, hl r hr⟩, ?_, ?_⟩
      · intro x
        rw [← i4 x]
        constructor
        · intro h; exact ⟨hl _ h, by simp [h]⟩
        · rintro ⟨h1, h2⟩
          rcases List.mem_append.1 h2 with h2 | h2
          · exact h2
          · simp only [List.mem_singleton, Prod.mk.injEq, and_true] at h2
            exact absurd h2 h1.ne
      · intro x
        rw [← i5 x]
        simp

/-- **C128** (next switching point): the first one after `s`, with its mark, or the end of the path. -/
theorem C128_next {w : List (Cfg n)} (hw : 2 ≤ w.length) (m : ℝ) (hr : NoReversal w) (s : ℝ) :
    let p := Path.new w m
    let q := p.getNextSwitchingPoint s
    (q ∈ p.switchingPoints ∨ q = (p.length, true)) ∧ (s < p.length → s < q.1) ∧
      ∀ r ∈ p.switchingPoints, s < r.1 → q.1 ≤ r.1 := by
  intro p q
  obtain ⟨h1, h2, -, -⟩ := C128_switching hw m hr
  change p.switchingPoints.Pairwise _ at h1
  change ∀ q ∈ p.switchingPoints, 0 ≤ q.1 ∧ q.1 < p.length at h2
  have hq : q = p.getNextSwitchingPoint s := rfl
  unfold Path.getNextSwitchingPoint at hq
  generalize p.switchingPoints = l at *
  generalize p.length = L at *
  generalize q = q at *
  induction l with
  | nil =>
      simp only [List.dropWhile_nil] at hq
      rw [hq]; simp
  | cons a l ih =>
      rw [List.dropWhile_cons] at hq
      by_cases ha : a.1 ≤ s
      · rw [if_pos (by simpa using ha)] at hq
        obtain ⟨j1, j2, j3⟩ := ih (List.pairwise_cons.1 h1).2 (fun r hr => h2 r (by simp [hr])) hq
        refine ⟨by rcases j1 with j1 | j1 <;> simp [j1], j2, ?_⟩
        intro r hr hs
        rcases List.mem_cons.1 hr with rfl | hr
        · linarith
        · exact j3 r hr hs
      · rw [if_neg (by simpa using ha)] at hq
        simp only at hq
        rw [hq]
        refine ⟨by simp, fun _ => not_le.1 ha, ?_⟩
        intro r hr _
        rcases List.mem_cons.1 hr with rfl | hr
        · exact le_rfl
        · exact (List.pairwise_cons.1 h1).1 r hr

/-- **C128** (start), false for waypoints at a distance of a millionth: the lines between them are left out, and the path
begins at a later waypoint. -/
theorem C128_start_false : ∃ (w : List (Cfg 1)) (m : ℝ), 2 ≤ w.length ∧ 0 < m ∧ NoReversal w ∧ EndsMoving w ∧ (Path.new w m).getConfig 0 ≠ w.head? := by
  set v : Cfg 1 := EuclideanSpace.single 0 (0.0000008 : ℝ) with hv
  have hn : ‖v‖ = 0.0000008 := by rw [hv, PiLp.norm_single]; norm_num
  have hv0 : v ≠ 0 := by rw [← norm_ne_zero_iff, hn]; norm_num
  have hr : NoReversal [0, v, (2 : ℝ) • v] := by
    intro pre a b c post e
    have hl := congrArg List.length e
    simp at hl
    have : pre = [] := List.length_eq_zero_iff.1 (by omega)
    subst this
    simp only [List.nil_append, List.cons.injEq] at e
    obtain ⟨rfl, rfl, rfl, -⟩ := e
    left
    intro h
    rw [show v - 0 = v by simp, show -((2 : ℝ) • v - v) = -v by module] at h
    rcases h with h | h | ⟨r1, r2, h1, h2, h⟩
    · exact hv0 h
    · exact hv0 (neg_eq_zero.1 h)
    · have : (r1 + r2) • v = 0 := by rw [add_smul, h]; module
      rcases smul_eq_zero.1 this with h | h
      · linarith
      · exact hv0 h
  refine ⟨[0, v, (2 : ℝ) • v], 1, by simp, one_pos, hr, ⟨[0], v, (2 : ℝ) • v, rfl, ?_⟩, ?_⟩
  · intro h
    have : v = 0 := by
      have h2 : (2 : ℝ) • v - v = v := by module
      rw [← h2, ← h, sub_self]
    exact hv0 this
  · have hb : circular (mid 0 v) v (mid v ((2 : ℝ) • v)) 1 = .arc 0 1 v 0 0 := by
      unfold circular
      rw [if_pos]
      left
      rw [sub_mid_right, norm_half, sub_zero, hn]; norm_num
    have hs : segmentsOf 1 [0, v, (2 : ℝ) • v] = [.arc 0 1 v 0 0, .line v ((2 : ℝ) • v)] := by
      simp only [segmentsOf, buildSegments]
      rw [if_pos one_pos, hb]
      have e : ∀ s, (Seg.arc 0 1 v 0 0 : Seg 1).config s = v := fun s => by simp [Seg.config]
      rw [e, e, if_neg (by rw [sub_zero, hn]; norm_num)]; rfl
    have hg : (Path.new [0, v, (2 : ℝ) • v] 1).getConfig 0 = some v := by
      unfold Path.getConfig Path.getPathSegment
      rw [new_segments (by simp), hs]
      simp [withPos, findSegment, Seg.length, Seg.config]
    rw [hg]
    simp [hv0]

/-- There are waypoints as in the theorems above. -/
example : NoReversal [(!₂[0, 0] : Cfg 2), !₂[1, 0], !₂[1, 1]] ∧ EndsMoving [(!₂[0, 0] : Cfg 2), !₂[1, 0], !₂[1, 1]] ∧
    Apart [(!₂[0, 0] : Cfg 2), !₂[1, 0], !₂[1, 1]] := by
  have e1 : (!₂[1, 0] : Cfg 2) - !₂[0, 0] = !₂[1, 0] := by ext i; fin_cases i <;> simp
  have e2 : (!₂[1, 1] : Cfg 2) - !₂[1, 0] = !₂[0, 1] := by ext i; fin_cases i <;> simp
  have n1 : ‖(!₂[1, 0] : Cfg 2)‖ = 1 := by simp [EuclideanSpace.norm_eq]
  have n2 : ‖(!₂[0, 1] : Cfg 2)‖ = 1 := by simp [EuclideanSpace.norm_eq]
  refine ⟨?_, ⟨[!₂[0, 0]], _, _, rfl, ?_⟩, ?_⟩
  · intro pre a b c post e
    have hl := congrArg List.length e
    simp at hl
    have : pre = [] := List.length_eq_zero_iff.1 (by omega)
    subst this
    simp only [List.nil_append, List.cons.injEq] at e
    obtain ⟨rfl, rfl, rfl, -⟩ := e
    left
    rw [e1, e2]
    rintro (h | h | ⟨r1, r2, h1, h2, h⟩)
    · rw [h, norm_zero] at n1; norm_num at n1
    · rw [neg_eq_zero.1 h, norm_zero] at n2; norm_num at n2
    · have := congrArg (fun v : Cfg 2 => v 0) h
      simp at this
      exact h1.ne' this
  · intro h
    have := congrArg (fun v : Cfg 2 => v 1) h
    simp at this
  · rintro a b ⟨pre, post, e⟩
    match pre, e with
    | [], e =>
        simp only [List.nil_append, List.cons.injEq] at e
        obtain ⟨rfl, rfl, -⟩ := e
        rw [e1, n1]; norm_num
    | [p], e =>
        simp only [List.cons_append, List.nil_append, List.cons.injEq] at e
        obtain ⟨-, rfl, rfl, -⟩ := e
        rw [e2, n2]; norm_num
    | p :: p' :: pre, e =>
        have hl := congrArg List.length e
        simp at hl
        omega

end Simox.Tot
