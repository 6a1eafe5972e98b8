import Verif.Workspace.Lemmas

/-! Invariants over histories: `maxEntry`, fill count, monotonicity. -/

namespace Simox.Workspace

open Spec

theorem halve_mono {m x y : Nat} (h : x ≤ y) : halve m x ≤ halve m y := by
  unfold halve; split <;> split <;> omega

/-- General induction over histories: a predicate preserved by each admissible step. -/
theorem run_induct {sz : Vox} {adj : Bool} (hs : Fits sz) (P : WDA → Prop) (ok : Op → Prop)
    (hstep : ∀ w w' s op, Refines sz adj w s → Admissible sz op → ok op → step w op = some w' →
      P w → P w')
    (ops : List Op) {w w' : WDA} {s : S} (hr : Refines sz adj w s)
    (ha : ∀ op ∈ ops, Admissible sz op) (hok : ∀ op ∈ ops, ok op) (h0 : P w)
    (hrun : run w ops = some w') : P w' := by
  induction ops generalizing w s with
  | nil => simp [run] at hrun; exact hrun ▸ h0
  | cons op ops ih =>
    obtain ⟨w1, e1, r1⟩ := step_refines hs op hr (ha op (List.mem_cons_self ..))
    refine ih r1 (fun o ho => ha o (List.mem_cons_of_mem _ ho))
      (fun o ho => hok o (List.mem_cons_of_mem _ ho)) ?_ ?_
    · exact hstep w w1 s op hr (ha op (List.mem_cons_self ..)) (hok op (List.mem_cons_self ..)) e1 h0
    · simpa [run, e1] using hrun

def MaxOk (sz : Vox) (w : WDA) : Prop := ∀ u, InRange sz u → val w u ≤ w.maxEntry

theorem step_maxOk {sz : Vox} {adj : Bool} (hs : Fits sz) (w w' : WDA) (s : S) (op : Op)
    (hr : Refines sz adj w s) (ha : Admissible sz op) (hok : NoRawCopy op)
    (he : step w op = some w') (h : MaxOk sz w) : MaxOk sz w' := by
  obtain ⟨h1, h2, h3, h4⟩ := hr
  subst h1 h2
  intro u hu
  have hu' := h u hu
  cases op with
  | set v x =>
    obtain ⟨w1, e, sm, hm, _, hv⟩ := setDatum_spec (x := x) hs ha.1
    have : w1 = w' := by simpa [step, e] using he
    subst this
    rw [hv u hu, hm]; split <;> omega
  | increase v =>
    obtain ⟨w1, e, sm, _, c1, c2, c3⟩ := increaseDatum_spec hs ha
    have : w1 = w' := by simpa [step, e] using he
    subst this
    by_cases hlt : val w v < 255
    · obtain ⟨hm, hv⟩ := c1 hlt
      rw [hv u hu, hm]; split <;> omega
    · by_cases hadj : w.adjust
      · obtain ⟨hm, hv⟩ := c2 hlt hadj
        rw [hv u hu, hm]; exact halve_mono hu'
      · obtain ⟨hm, hv⟩ := c3 hlt (by simpa using hadj)
        rw [hv u hu, hm]; exact hu'
  | setNeighbours v x n =>
    obtain ⟨w1, e, sm, hm, hv⟩ := setDatumCheckNeighbors_spec (x := x) hs ha.1 ha.2.2
    have : w1 = w' := by simpa [step, e] using he
    subst this
    rw [hv u hu, hm]
    split
    · omega
    · split <;> omega
  | bisect =>
    obtain ⟨w1, e, sm, hm, _, hv⟩ := bisectData_spec hs
    have : w1 = w' := by simpa [step, e] using he
    subst this
    rw [hv u hu, hm]; exact halve_mono hu'
  | binarize =>
    obtain ⟨w1, e, sm, hm, _, hv⟩ := binarize_spec hs
    have : w1 = w' := by simpa [step, e] using he
    subst this
    rw [hv u hu, hm]; omega
  | clear =>
    have : clear w = w' := by simpa [step] using he
    subst this
    rw [clear_val hu]; exact Nat.zero_le _
  | setMinValid m =>
    have : setMinValidValue w m = w' := by simpa [step] using he
    subst this
    exact hu'
  | setDataRot src x y z => exact absurd hok (by simp [NoRawCopy])
  | getDataRot x y z =>
    have hp := (posTr_eq (v := ⟨x, y, z, 0, 0, 0⟩) hs ha.1 ha.2.1 ha.2.2).2
    obtain ⟨w1, e, sm, hm, _, _, hv⟩ := ensureData_spec hp
    have : w1 = w' := by simpa [step, getDataRot, e] using he
    subst this
    rw [hv u, hm]; exact hu'
  | goOnWithClone =>
    have : clone w = w' := by simpa [step] using he
    subst this
    rw [clone_val hu]; exact hu'

/-! ### fill count -/

theorem count_congr {s : Vox} {f g : Vox → Nat} {n : Nat} (h : IsCount s f n)
    (hfg : ∀ v, InRange s v → (f v ≠ 0 ↔ g v ≠ 0)) : IsCount s g n := by
  obtain ⟨l, h1, h2, h3⟩ := h
  refine ⟨l, h1, fun v => ?_, h3⟩
  rw [h2 v]
  constructor
  · rintro ⟨a, b⟩; exact ⟨a, (hfg v a).mp b⟩
  · rintro ⟨a, b⟩; exact ⟨a, (hfg v a).mpr b⟩

theorem count_add {s : Vox} {f g : Vox → Nat} {n : Nat} (h : IsCount s f n) {v : Vox}
    (hv : InRange s v) (h0 : f v = 0) (hgv : g v ≠ 0)
    (hfg : ∀ u, u ≠ v → InRange s u → (f u ≠ 0 ↔ g u ≠ 0)) : IsCount s g (n + 1) := by
  obtain ⟨l, h1, h2, h3⟩ := h
  refine ⟨v :: l, ?_, fun u => ?_, by simp [h3]⟩
  · rw [List.nodup_cons]
    refine ⟨fun hm => ?_, h1⟩
    exact ((h2 v).mp hm).2 h0
  · rw [List.mem_cons, h2 u]
    by_cases huv : u = v
    · subst huv; simp [hv, hgv]
    · simp only [huv, false_or]
      constructor
      · rintro ⟨a, b⟩; exact ⟨a, (hfg u huv a).mp b⟩
      · rintro ⟨a, b⟩; exact ⟨a, (hfg u huv a).mpr b⟩

def Counted (sz : Vox) (w : WDA) : Prop := IsCount sz (val w) w.filled

theorem setDatum_counted {w w' : WDA} {v : Vox} {x : Nat} (hs : Fits w.sizes)
    (hv : InRange w.sizes v) (hx : x ≠ 0) (he : setDatum w v x = some w')
    (h : Counted w.sizes w) : Counted w.sizes w' := by
  obtain ⟨w1, e, sm, _, hf, hval⟩ := setDatum_spec (x := x) hs hv
  have : w1 = w' := by simpa [e] using he
  subst this
  unfold Counted at h ⊢
  rw [hf]
  by_cases h0 : val w v = 0
  · rw [if_pos h0]
    refine count_add h hv h0 ?_ ?_
    · rw [hval v hv]; simpa using hx
    · intro u huv hu; rw [hval u hu]; simp [huv]
  · rw [if_neg h0]
    refine count_congr h ?_
    intro u hu
    rw [hval u hu]
    by_cases huv : u = v
    · subst huv; simp [h0, hx]
    · simp [huv]

theorem neighbourLoop_counted {sz : Vox} (hs : Fits sz) (x : Nat) (hx : x ≠ 0) (l : List Vox)
    (hl : ∀ v ∈ l, InRange sz v) (w w' : WDA) (hw : w.sizes = sz)
    (he : loop (neighbourStep x) l w = some w') (h : Counted sz w) : Counted sz w' := by
  induction l generalizing w with
  | nil => simp [loop] at he; exact he ▸ h
  | cons v l ih =>
    have hv := hl v (List.mem_cons_self ..)
    subst hw
    have hg := get_eq hs hv
    by_cases hlt : val w v < x
    · obtain ⟨w1, e1, sm, _⟩ := setDatum_spec (x := x) hs hv
      have hst : neighbourStep x w v = some w1 := by
        unfold neighbourStep; simp [hg, hlt, e1]
      simp [loop, hst] at he
      have := ih (fun u hu => hl u (List.mem_cons_of_mem _ hu)) w1 sm.sizes he
      exact this (setDatum_counted hs hv hx e1 h)
    · have hst : neighbourStep x w v = some w := by
        unfold neighbourStep; simp [hg, hlt]
      simp [loop, hst] at he
      exact ih (fun u hu => hl u (List.mem_cons_of_mem _ hu)) w rfl he h

theorem halve_ne_zero {m x : Nat} (hm : m ≠ 0) : x ≠ 0 ↔ halve m x ≠ 0 := by
  unfold halve; split <;> omega

theorem step_counted {sz : Vox} {adj : Bool} (hs : Fits sz) (w w' : WDA) (s : S) (op : Op)
    (hr : Refines sz adj w s) (ha : Admissible sz op) (hok : NonZeroWrite op)
    (he : step w op = some w') (h : w.minValid ≠ 0 ∧ Counted sz w) :
    w'.minValid ≠ 0 ∧ Counted sz w' := by
  obtain ⟨hm0, h⟩ := h
  obtain ⟨h1, h2, h3, h4⟩ := hr
  subst h1 h2
  cases op with
  | set v x =>
    obtain ⟨w1, e, sm, _⟩ := setDatum_spec (x := x) hs ha.1
    have : w1 = w' := by simpa [step, e] using he
    subst this
    exact ⟨by rw [sm.minValid]; exact hm0, setDatum_counted hs ha.1 hok e h⟩
  | increase v =>
    have hadm : InRange w.sizes v := ha
    obtain ⟨w1, e, sm, hf, c1, c2, c3⟩ := increaseDatum_spec hs hadm
    have : w1 = w' := by simpa [step, e] using he
    subst this
    refine ⟨by rw [sm.minValid]; exact hm0, ?_⟩
    unfold Counted at h ⊢
    rw [hf]
    by_cases h0 : val w v = 0
    · rw [if_pos h0]
      obtain ⟨_, hv⟩ := c1 (by omega)
      refine count_add h hadm h0 ?_ ?_
      · rw [hv v hadm]; simp
      · intro u huv hu; rw [hv u hu]; simp [huv]
    · rw [if_neg h0]
      refine count_congr h ?_
      intro u hu
      by_cases hlt : val w v < 255
      · rw [(c1 hlt).2 u hu]
        by_cases huv : u = v
        · subst huv; simp [h0]
        · simp [huv]
      · by_cases hadj : w.adjust
        · rw [(c2 hlt hadj).2 u hu]; exact halve_ne_zero hm0
        · rw [(c3 hlt (by simpa using hadj)).2 u hu]
  | setNeighbours v x n =>
    obtain ⟨w1, e1, s1, _⟩ := setDatum_spec (x := x) hs ha.1
    obtain ⟨w2, e2, s2, _⟩ := setDatumCheckNeighbors_spec (x := x) hs ha.1 ha.2.2
    have : w2 = w' := by simpa [step, e2] using he
    subst this
    refine ⟨by rw [s2.minValid]; exact hm0, ?_⟩
    have hc1 := setDatum_counted hs ha.1 hok e1 h
    unfold setDatumCheckNeighbors at e2
    rw [e1] at e2
    simp only [Option.bind_eq_bind, Option.bind_some] at e2
    by_cases hn : n = 0
    · rw [if_pos hn] at e2
      have : w1 = w2 := by simpa using e2
      exact this ▸ hc1
    · rw [if_neg hn] at e2
      have hmem : ∀ u, u ∈ neighbours w1.sizes v n → InRange w.sizes u := by
        intro u hu; rw [s1.sizes] at hu; exact ((mem_neighbours ha.1 ha.2.2).mp hu).2
      exact neighbourLoop_counted hs x hok _ hmem w1 w2 s1.sizes e2 hc1
  | bisect =>
    obtain ⟨w1, e, sm, _, hf, hv⟩ := bisectData_spec hs
    have : w1 = w' := by simpa [step, e] using he
    subst this
    refine ⟨by rw [sm.minValid]; exact hm0, ?_⟩
    unfold Counted at h ⊢
    rw [hf]
    exact count_congr h (fun u hu => by rw [hv u hu]; exact halve_ne_zero hm0)
  | binarize =>
    obtain ⟨w1, e, sm, _, hf, hv⟩ := binarize_spec hs
    have : w1 = w' := by simpa [step, e] using he
    subst this
    refine ⟨by rw [sm.minValid]; exact hm0, ?_⟩
    unfold Counted at h ⊢
    rw [hf]
    exact count_congr h (fun u hu => by rw [hv u hu]; omega)
  | clear =>
    have : clear w = w' := by simpa [step] using he
    subst this
    refine ⟨hm0, [], List.nodup_nil, fun v => ?_, rfl⟩
    simp only [List.not_mem_nil, false_iff, not_and, ne_eq, Decidable.not_not]
    intro hv; exact clear_val hv
  | setMinValid m =>
    have : setMinValidValue w m = w' := by simpa [step] using he
    subst this
    exact ⟨hok, h⟩
  | setDataRot src x y z => exact absurd hok (by simp [NonZeroWrite])
  | getDataRot x y z =>
    have hp := (posTr_eq (v := ⟨x, y, z, 0, 0, 0⟩) hs ha.1 ha.2.1 ha.2.2).2
    obtain ⟨w1, e, sm, _, hf, _, hv⟩ := ensureData_spec hp
    have : w1 = w' := by simpa [step, getDataRot, e] using he
    subst this
    refine ⟨by rw [sm.minValid]; exact hm0, ?_⟩
    unfold Counted at h ⊢
    rw [hf]
    exact count_congr h (fun u _ => by rw [hv u])
  | goOnWithClone =>
    have : clone w = w' := by simpa [step] using he
    subst this
    exact ⟨hm0, count_congr h (fun u hu => by rw [clone_val hu])⟩

theorem new_counted (sz : Vox) (adj : Bool) : Counted sz (new sz adj) :=
  ⟨[], List.nodup_nil, fun v => by simp [val, new], rfl⟩

/-! ### increments -/

theorem spec_increase_val {sz : Vox} {adj : Bool} (s : S) (hits : List Vox)
    (h : ∀ u, s.val u + hits.count u ≤ 255) :
    ∀ u, (Spec.run sz adj s (hits.map .increase)).val u = s.val u + hits.count u := by
  induction hits generalizing s with
  | nil => intro u; simp [Spec.run]
  | cons v l ih =>
    intro u
    have hv := h v
    rw [List.count_cons_self] at hv
    have hst : Spec.step sz adj s (.increase v) = { s with val := put s.val v (s.val v + 1) } := by
      simp only [Spec.step]; rw [if_pos (by omega)]
    simp only [List.map_cons, Spec.run, hst]
    have key : ∀ w, put s.val v (s.val v + 1) w + l.count w = s.val w + (v :: l).count w := by
      intro w
      rw [List.count_cons]
      unfold put
      by_cases hw : w = v
      · subst hw; simp; omega
      · have hw' : (v == w) = false := by simpa using fun e => hw e.symm
        simp [hw, hw']
    rw [ih]
    · exact key u
    · intro w; show put s.val v (s.val v + 1) w + l.count w ≤ 255; rw [key]; exact h w

theorem spec_increase_sat {sz : Vox} (s : S) (hits : List Vox) (h : ∀ u, s.val u ≤ 255) :
    ∀ u, (Spec.run sz false s (hits.map .increase)).val u = min 255 (s.val u + hits.count u) := by
  induction hits generalizing s with
  | nil => intro u; have := h u; simp [Spec.run]; omega
  | cons v l ih =>
    intro u
    simp only [List.map_cons, Spec.run]
    by_cases hlt : s.val v < 255
    · have hst : Spec.step sz false s (.increase v) = { s with val := put s.val v (s.val v + 1) } := by
        simp only [Spec.step]; rw [if_pos hlt]
      rw [hst, ih]
      · show min 255 (put s.val v (s.val v + 1) u + l.count u) = _
        rw [List.count_cons]
        unfold put
        by_cases hw : u = v
        · subst hw; simp; omega
        · have hw' : (v == u) = false := by simpa using fun e => hw e.symm
          simp [hw, hw']
      · intro w
        show put s.val v (s.val v + 1) w ≤ 255
        unfold put; have := h w; split <;> omega
    · have hst : Spec.step sz false s (.increase v) = s := by
        simp only [Spec.step]; rw [if_neg hlt]; simp
      rw [hst, ih s h, List.count_cons]
      by_cases hw : u = v
      · subst hw; simp; omega
      · have hw' : (v == u) = false := by simpa using fun e => hw e.symm
        simp [hw']

/-! ### summed reachability -/

theorem sumOpt_zero (l : List (Option Nat)) (h : ∀ o ∈ l, o = some 0) : sumOpt l = some 0 := by
  induction l with
  | nil => rfl
  | cons o l ih =>
    have h1 := h o (List.mem_cons_self ..)
    subst h1
    have := ih (fun o ho => h o (List.mem_cons_of_mem _ ho))
    simp [sumOpt, this]

theorem sumAngle_zero {w : WDA} (hs : Fits w.sizes) {x y z : Nat} (hx : x < w.sizes.a)
    (hy : y < w.sizes.b) (hz : z < w.sizes.c) : sumAngleReachabilities w x y z = some 0 := by
  unfold sumAngleReachabilities
  split
  · rfl
  · rename_i hne
    apply sumOpt_zero
    intro o ho
    rw [List.mem_map] at ho
    obtain ⟨r, hr, rfl⟩ := ho
    have hpos := posTr_eq (v := ⟨x, y, z, r.d, r.e, r.f⟩) hs hx hy hz
    unfold hasEntry at hne
    rw [if_neg (by omega)] at hne
    have hnone : w.data (posTr w.sizes ⟨x, y, z, r.d, r.e, r.f⟩) = none := by
      have : posTr w.sizes ⟨x, y, z, r.d, r.e, r.f⟩ = posTr w.sizes ⟨x, y, z, 0, 0, 0⟩ := rfl
      rw [this]
      cases h : w.data (posTr w.sizes ⟨x, y, z, 0, 0, 0⟩) with
      | none => rfl
      | some b => simp [h] at hne
    unfold get
    rw [if_pos hpos.2, hnone]

end Simox.Workspace
