import Verif.Wsg.GridProps

/-!
# C120: merging grids
-/

namespace Simox.Wsg

variable {G : Type}

/-! ## Helpers -/

/-- The sample `i` lies in the cell `i`. -/
theorem sample_in (lo e d : ℝ) (n i : ℤ) (hd : 0 < d) (hn : n = ⌊e / d⌋ + 1) (h0 : 0 ≤ i) (hi : (i : ℝ) * d < e) :
    InCell lo e n i (lo + (i : ℝ) * d) := by
  have hin : i < n := by
    have : (i : ℝ) ≤ e / d := by rw [le_div_iff₀ hd]; exact hi.le
    have := Int.le_floor.2 this
    omega
  have hnp : (0 : ℝ) < n := by exact_mod_cast (by omega : 0 < n)
  have a1 := Int.floor_le (e / d)
  have a2 := Int.lt_floor_add_one (e / d)
  have hn' : (n : ℝ) = ⌊e / d⌋ + 1 := by rw [hn]; push_cast; ring
  rw [← hn', div_lt_iff₀ hd] at a2
  have a1' : (n : ℝ) - 1 ≤ e / d := by rw [hn']; linarith
  rw [le_div_iff₀ hd] at a1'
  have hi0 : (0 : ℝ) ≤ i := by exact_mod_cast h0
  refine ⟨h0, hin, ?_, ?_⟩
  · have hle : e / n ≤ d := by rw [div_le_iff₀ hnp]; linarith
    have : (i : ℝ) * (e / n) ≤ i * d := mul_le_mul_of_nonneg_left hle hi0
    linarith
  · have : (i : ℝ) * d < (i + 1) * (e / n) := by
      rw [← mul_div_assoc, lt_div_iff₀ hnp]
      have e1 : (n : ℝ) * d ≤ e + d := by linarith
      have e2 : (i : ℝ) * (n * d) ≤ i * (e + d) := mul_le_mul_of_nonneg_left e1 hi0
      linarith
    linarith

theorem foldl_min_all (f : Grid G → ℝ) (v : ℝ) : ∀ (gs : List (Grid G)) (m : ℝ), (∀ g ∈ gs, f g = v) → gs ≠ [] →
    gs.foldl (fun m g => min (f g) m) m = min v m
  | [g], m, h, _ => by simp [h g]
  | g :: g' :: gs, m, h, _ => by
      rw [List.foldl_cons, foldl_min_all f v (g' :: gs) _ (fun a ha => h a (List.mem_cons_of_mem _ ha)) (by simp), h g (by simp)]
      rw [← min_assoc, min_self]

theorem foldl_max_all (f : Grid G → ℝ) (v : ℝ) : ∀ (gs : List (Grid G)) (m : ℝ), (∀ g ∈ gs, f g = v) → gs ≠ [] →
    gs.foldl (fun m g => max (f g) m) m = max v m
  | [g], m, h, _ => by simp [h g]
  | g :: g' :: gs, m, h, _ => by
      rw [List.foldl_cons, foldl_max_all f v (g' :: gs) _ (fun a ha => h a (List.mem_cons_of_mem _ ha)) (by simp), h g (by simp)]
      rw [← max_assoc, max_self]

/-- Grids of the same format, with their sheets. -/
structure Alike (f : Format) (lx ly d : ℝ) (gs : List (Grid G × Sheet G)) : Prop where
  some : gs ≠ []
  shows : ∀ p ∈ gs, Shows f p.1 p.2
  low : ∀ p ∈ gs, p.2.lowX = lx ∧ p.2.lowY = ly
  distance : ∀ p ∈ gs, p.1.discretizeSize = d
  width : 0 < d
  sizeX : f.sizeX = ⌊f.extendX / d⌋ + 1
  sizeY : f.sizeY = ⌊f.extendY / d⌋ + 1

theorem worst_spec {f : Format} (x y : ℝ) (i j : ℤ) (r : ℕ → ℕ) : ∀ (gs : List (Grid G × Sheet G)) (k : ℕ) (m : ℤ) (q : Option G),
    (∀ p ∈ gs, Shows f p.1 p.2 ∧ InCell p.2.lowX f.extendX f.sizeX i x ∧ InCell p.2.lowY f.extendY f.sizeY j y) →
    ∃ v q', worst x y r (gs.map Prod.fst) k m q = some (v, q') ∧ v ≤ m ∧ (∀ p ∈ gs, v ≤ top (p.2.notes i j)) ∧
      (v = m ∨ ∃ p ∈ gs, top (p.2.notes i j) = v) ∧
      (∀ (hne : gs ≠ []), (∀ c, q' = some c → Kept ((gs.getLast hne).2.notes i j) c) ∧
        (q' = none → ∀ c, ¬ Kept ((gs.getLast hne).2.notes i j) c))
  | [], _, m, q, _ => ⟨m, q, rfl, le_refl _, by simp, .inl rfl, fun h => absurd rfl h⟩
  | p :: gs, k, m, q, h => by
      obtain ⟨hs, hx, hy⟩ := h p (by simp)
      have hq := C118_queries f p.1 p.2 hs
      obtain ⟨o, ho, hk, hk'⟩ := (hq.1 i j ⟨hx.1, hx.2.1, hy.1, hy.2.1⟩).2.2 (r k)
      have ho' : p.1.getEntryGrasp x y (r k) = some (some (top (p.2.notes i j), o)) := by rw [(hq.2.2.1 x y i j hx hy).2.2, ho]
      obtain ⟨v, q', h1, h2, h3, h4, h5⟩ := worst_spec x y i j r gs (k + 1) (min (top (p.2.notes i j)) m) o
        (fun p' hp' => h p' (List.mem_cons_of_mem _ hp'))
      refine ⟨v, q', ?_, by omega, ?_, ?_, ?_⟩
      · simp only [List.map_cons]
        unfold worst
        rw [ho']
        exact h1
      · intro p' hp'
        rcases List.mem_cons.1 hp' with rfl | hp'
        · omega
        · exact h3 p' hp'
      · rcases h4 with h4 | ⟨p', hp', h4⟩
        · rcases le_total (top (p.2.notes i j)) m with hm | hm
          · exact .inr ⟨p, by simp, by omega⟩
          · exact .inl (by omega)
        · exact .inr ⟨p', List.mem_cons_of_mem _ hp', h4⟩
      · intro hne
        by_cases hg : gs = []
        · subst hg
          simp only [List.map_nil, worst, Option.some.injEq, Prod.mk.injEq] at h1
          simp only [List.getLast_singleton]
          rw [← h1.2]
          exact ⟨hk, hk'⟩
        · rw [List.getLast_cons hg]
          exact h5 hg

/-- The worst of the entries of a cell. -/
def Worst (gs : List (Grid G × Sheet G)) (i j v : ℤ) : Prop :=
  (∀ p ∈ gs, v ≤ top (p.2.notes i j)) ∧ ∃ p ∈ gs, top (p.2.notes i j) = v

theorem top_nonneg' (l : List (ℤ × Option G)) : 0 ≤ top l := by
  induction l using List.reverseRecOn with
  | nil => exact le_refl _
  | append_singleton l a ih => rw [top_append]; omega

theorem mergeAt_spec [DecidableEq G] {f : Format} {lx ly d : ℝ} {gs : List (Grid G × Sheet G)} (ha : Alike f lx ly d gs)
    (hi : ∀ p ∈ gs, ∀ i j, top (p.2.notes i j) ≤ intMax) (r : ℝ → ℝ → ℕ → ℕ) : ∀ (ks : List (ℕ × ℕ)) (_ : ks.Nodup)
    (_ : ∀ k ∈ ks, (k.1 : ℝ) * d < f.extendX ∧ (k.2 : ℝ) * d < f.extendY) (g : Grid G) (s : Sheet G) (_ : Shows f g s)
    (_ : s.lowX = lx) (_ : s.lowY = ly),
    ∃ g' s', mergeAt (gs.map Prod.fst) r (ks.map fun k => (lx + (k.1 : ℝ) * d, ly + (k.2 : ℝ) * d)) g = some g' ∧ Shows f g' s' ∧
      s'.lowX = lx ∧ s'.lowY = ly ∧ g'.discretizeSize = g.discretizeSize ∧
      (∀ k ∈ ks, ∃ v q, s'.notes k.1 k.2 = s.notes k.1 k.2 ++ [(v, q)] ∧ Worst gs k.1 k.2 v ∧
        (∀ c, q = some c → Kept ((gs.getLast ha.some).2.notes k.1 k.2) c) ∧
        (q = none → ∀ c, ¬ Kept ((gs.getLast ha.some).2.notes k.1 k.2) c)) ∧
      (∀ i j, (∀ k ∈ ks, ¬ ((k.1 : ℤ) = i ∧ (k.2 : ℤ) = j)) → s'.notes i j = s.notes i j)
  | [], _, _, g, s, h, h1, h2 => ⟨g, s, rfl, h, h1, h2, rfl, by simp, by simp⟩
  | k :: ks, hn, hk, g, s, h, h1, h2 => by
      obtain ⟨hkx, hky⟩ := hk k (by simp)
      have cx : ∀ l : ℝ, l = lx → InCell l f.extendX f.sizeX k.1 (lx + (k.1 : ℝ) * d) := by
        rintro l rfl
        have := sample_in l f.extendX d f.sizeX (k.1 : ℤ) ha.width ha.sizeX (by omega) (by push_cast; exact hkx)
        push_cast at this
        exact this
      have cy : ∀ l : ℝ, l = ly → InCell l f.extendY f.sizeY k.2 (ly + (k.2 : ℝ) * d) := by
        rintro l rfl
        have := sample_in l f.extendY d f.sizeY (k.2 : ℤ) ha.width ha.sizeY (by omega) (by push_cast; exact hky)
        push_cast at this
        exact this
      obtain ⟨v, q, w1, w2, w3, w4, w5⟩ := worst_spec (f := f) (lx + (k.1 : ℝ) * d) (ly + (k.2 : ℝ) * d) k.1 k.2
        (r (lx + (k.1 : ℝ) * d) (ly + (k.2 : ℝ) * d)) gs 0 intMax none
        (fun p hp => ⟨ha.shows p hp, cx _ (ha.low p hp).1, cy _ (ha.low p hp).2⟩)
      have hw : Worst gs k.1 k.2 v := by
        refine ⟨w3, ?_⟩
        rcases w4 with w4 | w4
        · obtain ⟨p, hp⟩ := List.exists_mem_of_ne_nil gs ha.some
          have a1 := w3 p hp
          have a2 := hi p hp k.1 k.2
          exact ⟨p, hp, by omega⟩
        · exact w4
      obtain ⟨g1, e1, s1⟩ := setEntry_shows h (lx + (k.1 : ℝ) * d) (ly + (k.2 : ℝ) * d) v q
      obtain ⟨g', s', e2, s2, l1, l2, l3, n1, n2⟩ := mergeAt_spec ha hi r ks (List.nodup_cons.1 hn).2
        (fun k' hk' => hk k' (List.mem_cons_of_mem _ hk')) g1 _ s1 h1 h2
      have hat : s.At f (lx + (k.1 : ℝ) * d) (ly + (k.2 : ℝ) * d) k.1 k.2 := ⟨.inl (cx _ h1), .inl (cy _ h2)⟩
      have hon := at_on h hat
      have other : ∀ i j, ¬ ((k.1 : ℤ) = i ∧ (k.2 : ℤ) = j) →
          (s.note f (s.At f (lx + (k.1 : ℝ) * d) (ly + (k.2 : ℝ) * d)) v q).notes i j = s.notes i j := by
        classical
        intro i j hij
        simp only [Sheet.note]
        rw [if_neg]
        rintro ⟨ho, hA⟩
        have c1 := (cell_at h _ _ hon).2 hat
        have c2 := (cell_at h _ _ ho).2 hA
        exact hij ⟨by rw [← c1.1, c2.1], by rw [← c1.2, c2.2]⟩
      refine ⟨g', s', ?_, s2, l1, l2, by rw [l3, setEntry_discretize e1], ?_, ?_⟩
      · simp only [List.map_cons]
        unfold mergeAt
        dsimp only
        rw [w1]
        dsimp only
        rw [e1]
        exact e2
      · intro k' hk'
        rcases List.mem_cons.1 hk' with rfl | hk''
        · refine ⟨v, q, ?_, hw, w5 ha.some⟩
          rw [n2 _ _ (fun k'' hk'' hc => ?_)]
          · classical
            simp only [Sheet.note]
            rw [if_pos ⟨hon, hat⟩]
          · have : k'' = k' := Prod.ext (by exact_mod_cast hc.1) (by exact_mod_cast hc.2)
            subst this
            exact (List.nodup_cons.1 hn).1 hk''
        · obtain ⟨v', q', m1, m2⟩ := n1 k' hk''
          refine ⟨v', q', ?_, m2⟩
          rw [m1, other _ _ (fun hc => ?_)]
          have : k = k' := Prod.ext (by exact_mod_cast hc.1) (by exact_mod_cast hc.2)
          subst this
          exact (List.nodup_cons.1 hn).1 hk''
      · intro i j hij
        rw [n2 i j (fun k' hk' => hij k' (List.mem_cons_of_mem _ hk')), other i j (hij k (by simp))]

/-- The samples of one direction. -/
theorem samples (lo e d : ℝ) : stepsTo lo (lo + e) d = (List.range ⌈e / d⌉₊).map fun k : ℕ => lo + (k : ℝ) * d := by
  unfold stepsTo
  rw [add_sub_cancel_left]

theorem lt_samples (e d : ℝ) (hd : 0 < d) (k : ℕ) : k < ⌈e / d⌉₊ ↔ (k : ℝ) * d < e := by
  rw [Nat.lt_ceil, lt_div_iff₀ hd]

/-! ## Properties -/

/-- Merging grids of the same format whose area ends above 0: every cell has the worst of the entries of the grids and one of the grasps of the
last grid, if that has one, if the cell starts, counted in steps of the given size, before the end of the
area. Missing: grids of different formats and areas and the other cells, for which it is false
(`C120_last_false`, `C120_areas_false`, `C120_negative_false`). -/
theorem C120_worst_partial [DecidableEq G] (f : Format) (lx ly d : ℝ) (gs : List (Grid G × Sheet G)) (ha : Alike f lx ly d gs)
    (hi : ∀ p ∈ gs, ∀ i j, top (p.2.notes i j) ≤ intMax) (hlx : lx ≤ fltMax) (hly : ly ≤ fltMax) (hux : fltMin ≤ lx + f.extendX)
    (huy : fltMin ≤ ly + f.extendY) (r : ℝ → ℝ → ℕ → ℕ) :
    ∃ (g : Grid G) (s : Sheet G), merge (gs.map Prod.fst) r = .done g ∧ Shows f g s ∧ s.lowX = lx ∧ s.lowY = ly ∧ g.discretizeSize = d ∧
      ∀ i j, f.On i j →
        ((i : ℝ) * d < f.extendX → (j : ℝ) * d < f.extendY → Worst gs i j (top (s.notes i j)) ∧
          (∀ q, Kept (s.notes i j) q → Kept ((gs.getLast ha.some).2.notes i j) q) ∧
          ((∃ q, Kept ((gs.getLast ha.some).2.notes i j) q) → ∃! q, Kept (s.notes i j) q)) ∧
        (¬ ((i : ℝ) * d < f.extendX ∧ (j : ℝ) * d < f.extendY) → top (s.notes i j) = 0 ∧ ∀ q, ¬ Kept (s.notes i j) q) := by
  obtain ⟨p₀, gs', rfl⟩ := List.exists_cons_of_ne_nil ha.some
  have hp₀ := ha.shows p₀ (by simp)
  have hX := hp₀.posX
  have hY := hp₀.posY
  have hne : (p₀ :: gs').map Prod.fst ≠ [] := by simp
  have b : bounds ((p₀ :: gs').map Prod.fst) = ((lx, lx + f.extendX), (ly, ly + f.extendY)) := by
    unfold bounds
    have hall : ∀ (F : Grid G → ℝ) (v : ℝ), (∀ p ∈ p₀ :: gs', F p.1 = v) → ∀ g ∈ (p₀ :: gs').map Prod.fst, F g = v := by
      intro F v hF g hg
      obtain ⟨p, hp, rfl⟩ := List.mem_map.1 hg
      exact hF p hp
    rw [foldl_min_all (fun g => g.minX) lx _ _ (hall _ _ fun p hp => by rw [(ha.shows p hp).low.1, (ha.low p hp).1]) hne,
      foldl_min_all (fun g => g.minY) ly _ _ (hall _ _ fun p hp => by rw [(ha.shows p hp).low.2, (ha.low p hp).2]) hne,
      foldl_max_all (fun g => g.maxX) (lx + f.extendX) _ _ (hall _ _ fun p hp => by rw [(ha.shows p hp).high.1, (ha.low p hp).1]) hne,
      foldl_max_all (fun g => g.maxY) (ly + f.extendY) _ _ (hall _ _ fun p hp => by rw [(ha.shows p hp).high.2, (ha.low p hp).2]) hne,
      min_eq_left hlx, min_eq_left hly, max_eq_left hux, max_eq_left huy]
  obtain ⟨f', g, hg, hs, n1, n2, n3, n4, n5, -⟩ := (C118_new (G := G) lx (lx + f.extendX) ly (ly + f.extendY) d).2
    (by linarith [hX.2]) (by linarith [hY.2]) ha.width
  have hf : f' = f := by
    obtain ⟨a, b, c, e⟩ := f'
    have hX' := ha.sizeX
    have hY' := ha.sizeY
    obtain ⟨a', b', c', e'⟩ := f
    simp only [add_sub_cancel_left] at *
    subst n1 n2 n4 n5 hX' hY'
    rfl
  subst hf
  have hks : ((stepsTo lx (lx + f'.extendX) d).flatMap fun x => (stepsTo ly (ly + f'.extendY) d).map fun y => (x, y)) =
      ((List.range ⌈f'.extendX / d⌉₊).flatMap fun a => (List.range ⌈f'.extendY / d⌉₊).map fun b => (a, b)).map
        fun k : ℕ × ℕ => (lx + (k.1 : ℝ) * d, ly + (k.2 : ℝ) * d) := by
    rw [samples, samples, List.flatMap_map, List.map_flatMap]
    congr 1
    funext a
    simp only [List.map_map]
    rfl
  have hmem : ∀ k : ℕ × ℕ, k ∈ ((List.range ⌈f'.extendX / d⌉₊).flatMap fun a => (List.range ⌈f'.extendY / d⌉₊).map fun b => (a, b)) ↔
      (k.1 : ℝ) * d < f'.extendX ∧ (k.2 : ℝ) * d < f'.extendY := by
    rintro ⟨a, b⟩
    rw [← lt_samples _ _ ha.width, ← lt_samples _ _ ha.width]
    simp only [List.mem_flatMap, List.mem_map, List.mem_range, Prod.mk.injEq]
    constructor
    · rintro ⟨x, hx, y, hy, rfl, rfl⟩; exact ⟨hx, hy⟩
    · rintro ⟨hx, hy⟩; exact ⟨a, hx, b, hy, rfl, rfl⟩
  have hnd : ((List.range ⌈f'.extendX / d⌉₊).flatMap fun a => (List.range ⌈f'.extendY / d⌉₊).map fun b => (a, b)).Nodup := by
    have := List.Nodup.product (List.nodup_range (n := ⌈f'.extendX / d⌉₊)) (List.nodup_range (n := ⌈f'.extendY / d⌉₊))
    exact this
  obtain ⟨g', s', e, hs', l1, l2, l3, c1, c2⟩ := mergeAt_spec ha hi r _ hnd (fun k hk => (hmem k).1 hk) g _ hs rfl rfl
  refine ⟨g', s', ?_, hs', l1, l2, by rw [l3, n3], ?_⟩
  · unfold merge
    simp only [List.map_cons]
    simp only [List.map_cons] at b
    rw [b]
    dsimp only
    rw [ha.distance p₀ (by simp), hg]
    dsimp only
    rw [n3, if_neg (not_le.2 ha.width), hks]
    simp only [List.map_cons] at e
    rw [e]
  · intro i j ho
    obtain ⟨a, rfl⟩ := Int.eq_ofNat_of_zero_le ho.1
    obtain ⟨c, rfl⟩ := Int.eq_ofNat_of_zero_le ho.2.2.1
    constructor
    · intro h1 h2
      obtain ⟨v, q, m1, m2, m3, m4⟩ := c1 (a, c) ((hmem (a, c)).2 ⟨by exact_mod_cast h1, by exact_mod_cast h2⟩)
      simp only [List.nil_append] at m1
      have hv : 0 ≤ v := by
        obtain ⟨p, -, hv⟩ := m2.2
        rw [← hv]
        exact top_nonneg' _
      have ht : top (s'.notes a c) = v := by rw [m1, ← List.nil_append [(v, q)], top_append]; exact max_eq_right hv
      have hkept : ∀ q', Kept (s'.notes a c) q' ↔ q = some q' := by
        intro q'
        rw [m1, ← List.nil_append [(v, q)], kept_append]
        constructor
        · rintro (⟨x, y, z, hz, -⟩ | hq')
          · simp at hz
          · exact hq'.1
        · intro hq'
          exact .inr ⟨hq', .inr hv⟩
      rw [ht]
      refine ⟨m2, fun q' hq' => m3 q' ((hkept q').1 hq'), ?_⟩
      rintro ⟨q', hq'⟩
      rcases hqq : q with _ | q''
      · exact absurd hq' (m4 hqq q')
      · refine ⟨q'', (hkept q'').2 hqq, fun y hy => ?_⟩
        have := (hkept y).1 hy
        rw [hqq] at this
        simpa using this.symm
    · intro h12
      have hnil := c2 a c (fun k hk hc => h12 (by
        have := (hmem k).1 hk
        obtain ⟨k1, k2⟩ := k
        have e1 : k1 = a := by exact_mod_cast hc.1
        have e2 : k2 = c := by exact_mod_cast hc.2
        subst e1 e2
        exact_mod_cast this))
      rw [hnil]
      refine ⟨rfl, ?_⟩
      rintro q' ⟨x, y, z, hz, -⟩
      simp at hz

/-- A new grid over a square, with its format. -/
theorem new_square (lo hi d : ℝ) (n : ℤ) (h : lo < hi) (hd : 0 < d) (hn : ⌊(hi - lo) / d⌋ + 1 = n) :
    ∃ g : Grid ℕ, Grid.new lo hi lo hi d = some g ∧ Shows ⟨hi - lo, hi - lo, n, n⟩ g ⟨lo, lo, fun _ _ => []⟩ ∧ g.discretizeSize = d := by
  obtain ⟨f, g, h1, h2, e1, e2, e5, e3, e4, -⟩ := (C118_new (G := ℕ) lo hi lo hi d).2 h h hd
  have : f = ⟨hi - lo, hi - lo, n, n⟩ := by
    obtain ⟨a, b, c, e⟩ := f
    simp only at e1 e2 e3 e4
    rw [e1, e2, e3, e4, hn]
  rw [← this]
  exact ⟨g, h1, h2, e5⟩

/-- The last rows are lost if the size divides the area: a grid, merged alone, is not the grid. -/
theorem C120_last_false : ∃ g₀ g : Grid ℕ, Grid.new 0 10 0 10 10 = some g₀ ∧ g₀.setEntry 9 9 7 none = some g ∧ g.getEntry 9 9 = some 7 ∧
    ∀ r, ∃ g', merge [g] r = .done g' ∧ g'.getEntry 9 9 = some 0 := by
  obtain ⟨g₀, h1, h2, hd⟩ := new_square 0 10 10 2 (by norm_num) (by norm_num) (by norm_num)
  norm_num at h2
  obtain ⟨g, e, h'⟩ := setEntry_shows h2 9 9 7 none
  have hx : InCell (0 : ℝ) 10 2 1 9 := ⟨by norm_num, by norm_num, by norm_num, by norm_num⟩
  have hat : (⟨0, 0, fun _ _ => []⟩ : Sheet ℕ).At ⟨10, 10, 2, 2⟩ 9 9 1 1 := ⟨.inl hx, .inl hx⟩
  have ho : (⟨10, 10, 2, 2⟩ : Format).On 1 1 := ⟨by norm_num, by norm_num, by norm_num, by norm_num⟩
  refine ⟨g₀, g, h1, e, ?_, fun r => ?_⟩
  · have hq := C118_queries _ g _ h'
    rw [(hq.2.2.1 9 9 1 1 hx hx).1, (hq.1 1 1 ho).1]
    classical
    simp [Sheet.note, ho, hat, top]
  · have ha : Alike ⟨10, 10, 2, 2⟩ 0 0 10 [(g, (⟨0, 0, fun _ _ => []⟩ : Sheet ℕ).note ⟨10, 10, 2, 2⟩
        ((⟨0, 0, fun _ _ => []⟩ : Sheet ℕ).At ⟨10, 10, 2, 2⟩ 9 9) 7 none)] := by
      refine ⟨by simp, ?_, ?_, ?_, by norm_num, by norm_num, by norm_num⟩
      · simpa using h'
      · simp [Sheet.note]
      · simpa using (setEntry_discretize e).trans hd
    have hf1 : (0 : ℝ) ≤ fltMax := by unfold fltMax; norm_num
    have hf2 : fltMin ≤ (0 : ℝ) + 10 := by unfold fltMin; norm_num
    obtain ⟨g', s', m1, m2, m3, m4, -, m5⟩ := C120_worst_partial _ 0 0 10 _ ha (by
      simp only [List.mem_singleton, forall_eq]
      intro i j
      classical
      simp only [Sheet.note]
      split_ifs
      · simp [top, intMax]
      · simp [top, intMax]) hf1 hf1 hf2 hf2 r
    refine ⟨g', m1, ?_⟩
    have hq := C118_queries _ g' s' m2
    rw [(hq.2.2.1 9 9 1 1 (by rw [m3]; exact hx) (by rw [m4]; exact hx)).1, (hq.1 1 1 ho).1, ((m5 1 1 ho).2 (by norm_num)).1]

theorem worst_none (x y : ℝ) (r : ℕ → ℕ) : ∀ (gs : List (Grid G)) (k : ℕ) (m : ℤ) (q : Option G),
    (∃ g ∈ gs, ∀ r, g.getEntryGrasp x y r = some none) → worst x y r gs k m q = none
  | [], _, _, _, h => by simp at h
  | g :: gs, k, m, q, h => by
      unfold worst
      rcases he : g.getEntryGrasp x y (r k) with _ | _ | e
      · rfl
      · rfl
      · dsimp only
        apply worst_none x y r gs
        obtain ⟨g', hg', hh⟩ := h
        rcases List.mem_cons.1 hg' with rfl | hg'
        · rw [hh] at he; simp at he
        · exact ⟨g', hg', hh⟩

theorem mergeAt_none [DecidableEq G] (gs : List (Grid G)) (r : ℝ → ℝ → ℕ → ℕ) : ∀ (ps : List (ℝ × ℝ)) (n : Grid G),
    (∃ p ∈ ps, ∃ g ∈ gs, ∀ r, g.getEntryGrasp p.1 p.2 r = some none) → mergeAt gs r ps n = none
  | [], _, h => by simp at h
  | p :: ps, n, h => by
      unfold mergeAt
      obtain ⟨p', hp', hg⟩ := h
      rcases List.mem_cons.1 hp' with rfl | hp'
      · rw [worst_none _ _ _ gs 0 intMax none hg]
      · rcases worst p.1 p.2 (r p.1 p.2) gs 0 intMax none with _ | e
        · rfl
        · dsimp only
          rcases n.setEntry p.1 p.2 e.1 e.2 with _ | n'
          · rfl
          · exact mergeAt_none gs r ps n' ⟨p', hp', hg⟩

/-- If one of the positions at which the grids are compared is not in all of them, a value that was never set is used. -/
theorem merge_undefined [DecidableEq G] (gs : List (Grid G)) (lx ux ly uy d : ℝ) (hb : bounds gs = ((lx, ux), (ly, uy))) (hd : 0 < d)
    (hne : gs ≠ []) (hg : ∀ g ∈ gs, g.discretizeSize = d) (hx : lx < ux) (hy : ly < uy) (i j : ℕ) (hi : lx + (i : ℝ) * d < ux)
    (hj : ly + (j : ℝ) * d < uy) (h : ∃ g ∈ gs, ∀ r, g.getEntryGrasp (lx + (i : ℝ) * d) (ly + (j : ℝ) * d) r = some none)
    (r : ℝ → ℝ → ℕ → ℕ) : merge gs r = .undefined := by
  obtain ⟨g₀, gs', rfl⟩ := List.exists_cons_of_ne_nil hne
  obtain ⟨f, n, hn, -, -, -, e, -⟩ := (C118_new (G := G) lx ux ly uy d).2 hx hy hd
  unfold merge
  dsimp only
  rw [hb, hg g₀ (by simp)]
  dsimp only
  rw [hn]
  dsimp only
  rw [e, if_neg (not_le.2 hd), mergeAt_none _ r _ n]
  refine ⟨(lx + (i : ℝ) * d, ly + (j : ℝ) * d), ?_, h⟩
  have hs : ∀ (lo hi : ℝ) (k : ℕ), lo + (k : ℝ) * d < hi → lo + (k : ℝ) * d ∈ stepsTo lo hi d := by
    intro lo hi k hk
    unfold stepsTo
    refine List.mem_map.2 ⟨k, List.mem_range.2 ?_, rfl⟩
    rw [Nat.lt_ceil, lt_div_iff₀ hd]
    linarith
  exact List.mem_flatMap.2 ⟨_, hs _ _ _ hi, List.mem_map.2 ⟨_, hs _ _ _ hj, rfl⟩⟩

/-- A position above the grid is in no cell. -/
theorem not_found {f : Format} {g : Grid G} {s : Sheet G} (h : Shows f g s) (x y : ℝ)
    (hx : x ≤ s.lowX - f.extendX / f.sizeX ∨ s.lowX + f.extendX ≤ x ∨ s.lowY + f.extendY ≤ y) (r : ℕ) : g.getEntryGrasp x y r = some none := by
  unfold Grid.getEntryGrasp
  apply ((C118_queries f g s h).2.1 _ _ _).2.2
  intro hon
  obtain ⟨c1, c2⟩ := (cell_at h x y hon).1 ⟨rfl, rfl⟩
  have hn : (0 : ℝ) < f.sizeX := by exact_mod_cast h.posX.1
  have hp : 0 < f.extendX / f.sizeX := div_pos h.posX.2 hn
  have hl : ∀ (lo e : ℝ) (n i : ℤ) (z : ℝ), 0 < n → 0 < e → TakenFor lo e n i z → lo - e / n < z ∧ z < lo + e := by
    intro lo e n i z hn he hz
    have hn' : (0 : ℝ) < n := by exact_mod_cast hn
    have hp : 0 < e / n := div_pos he hn'
    rcases hz with hz | ⟨-, hz⟩
    · have := ((C118_partition lo e n hn he z).1).2 ⟨i, hz⟩
      exact ⟨by linarith, this.2⟩
    · exact ⟨hz.1, by linarith [hz.2]⟩
  have d1 := hl _ _ _ _ _ h.posX.1 h.posX.2 c1
  have d2 := hl _ _ _ _ _ h.posY.1 h.posY.2 c2
  rcases hx with hx | hx | hx <;> linarith

/-- Grids of different areas cannot be merged: a value that was never set is used. -/
theorem C120_areas_false : ∃ g₁ g₂ : Grid ℕ, Grid.new 0 10 0 10 10 = some g₁ ∧ Grid.new 20 30 20 30 10 = some g₂ ∧
    ∀ r, merge [g₁, g₂] r = .undefined := by
  obtain ⟨g₁, h1, h2, h3⟩ := new_square 0 10 10 2 (by norm_num) (by norm_num) (by norm_num)
  obtain ⟨g₂, k1, k2, k3⟩ := new_square 20 30 10 2 (by norm_num) (by norm_num) (by norm_num)
  refine ⟨g₁, g₂, h1, k1, fun r => ?_⟩
  have hf1 : (30 : ℝ) ≤ fltMax := by unfold fltMax; norm_num
  have hf2 : fltMin ≤ (10 : ℝ) := by unfold fltMin; norm_num
  have hb : bounds [g₁, g₂] = ((0, 30), (0, 30)) := by
    have a1 := h2.low
    have a2 := h2.high
    have a3 := k2.low
    have a4 := k2.high
    simp only at a1 a2 a3 a4
    norm_num at a2 a4
    simp only [bounds, List.foldl_cons, List.foldl_nil, a1, a2, a3, a4]
    rw [min_eq_left (by linarith : (0 : ℝ) ≤ fltMax), max_eq_left hf2]
    norm_num
  refine merge_undefined [g₁, g₂] 0 30 0 30 10 hb (by norm_num) (by simp) (by simp [h3, k3]) (by norm_num) (by norm_num) 0 0 (by norm_num)
    (by norm_num) ⟨g₂, by simp, fun r' => not_found k2 _ _ (.inl (by norm_num)) r'⟩ r

/-- A grid whose area ends below 0 cannot even be merged alone: its upper bounds are lost. -/
theorem C120_negative_false : ∃ g : Grid ℕ, Grid.new (-20) (-10) (-20) (-10) 10 = some g ∧ ∀ r, merge [g] r = .undefined := by
  obtain ⟨g, h1, h2, h3⟩ := new_square (-20) (-10) 10 2 (by norm_num) (by norm_num) (by norm_num)
  refine ⟨g, h1, fun r => ?_⟩
  have hf1 : (0 : ℝ) ≤ fltMax := by unfold fltMax; norm_num
  have hf2 : (0 : ℝ) < fltMin := by unfold fltMin; norm_num
  have hb : bounds [g] = ((-20, fltMin), (-20, fltMin)) := by
    have a1 := h2.low
    have a2 := h2.high
    simp only at a1 a2
    norm_num at a2
    simp only [bounds, List.foldl_cons, List.foldl_nil, a1, a2]
    rw [min_eq_left (by linarith : (-20 : ℝ) ≤ fltMax), max_eq_right (by linarith : (-10 : ℝ) ≤ fltMin)]
  refine merge_undefined [g] (-20) fltMin (-20) fltMin 10 hb (by norm_num) (by simp) (by simp [h3]) (by linarith) (by linarith) 0 1
    (by norm_num; linarith) (by norm_num; linarith) ⟨g, by simp, fun r' => not_found h2 _ _ (.inr (.inr (by norm_num))) r'⟩ r

end Simox.Wsg
