import Verif.Wsr.Lemmas
import Verif.Workspace.Lemmas
import Mathlib.Data.List.TakeWhile
import Mathlib.Data.List.Induction

/-! # Lemmas on the recording of poses -/

namespace Simox.Wsr

open Workspace Spec
open Workspace.Spec (InRange Fits InCube)

/-- Two representations with the same grid. -/
structure SameGrid (r r' : Rep) : Prop where
  lo : r'.lo = r.lo
  hi : r'.hi = r.hi
  space : r'.space = r.space
  num : r'.num = r.num
  stepT : r'.stepT = r.stepT
  stepR : r'.stepR = r.stepR

theorem SameGrid.trans {a b c : Rep} (h : SameGrid a b) (g : SameGrid b c) : SameGrid a c :=
  ⟨g.lo.trans h.lo, g.hi.trans h.hi, g.space.trans h.space, g.num.trans h.num, g.stepT.trans h.stepT,
   g.stepR.trans h.stepR⟩

theorem SameGrid.addr {r r' : Rep} (h : SameGrid r r') (x : Fin 6 → ℝ) :
    getVoxelFromPose r' x = getVoxelFromPose r x := by
  unfold getVoxelFromPose axisVoxel
  rw [h.lo, h.space, h.num]

/-- `r` has content `s`. -/
structure Good (adj : Bool) (r : Rep) (s : Vox → Nat) : Prop where
  ok : Ok r
  fits : FitsGrid r
  sizes : r.data.sizes = sizesOf r.num
  adjust : r.data.adjust = adj
  minValid : r.data.minValid = 1
  val : ∀ u, InRange (sizesOf r.num) u → val r.data u = s u
  small : ∀ u, InRange (sizesOf r.num) u → s u ≤ 255

theorem toNat_mul3 {a b c : ℤ} (ha : 0 < a) (hb : 0 < b) (_hc : 0 < c) (h : a * b * c < 2 ^ 32) :
    a.toNat * b.toNat * c.toNat < 2 ^ 32 := by
  have e1 : (a.toNat : ℤ) = a := Int.toNat_of_nonneg ha.le
  have e2 : (b.toNat : ℤ) = b := Int.toNat_of_nonneg hb.le
  have e3 : (c.toNat : ℤ) = c := Int.toNat_of_nonneg _hc.le
  have : ((a.toNat * b.toNat * c.toNat : ℕ) : ℤ) < 2 ^ 32 := by push_cast; rw [e1, e2, e3]; exact h
  exact_mod_cast this

theorem fitsGrid_fits {r : Rep} (ok : Ok r) (h : FitsGrid r) : Fits (sizesOf r.num) :=
  ⟨toNat_mul3 (ok.num 0) (ok.num 1) (ok.num 2) h.1, toNat_mul3 (ok.num 3) (ok.num 4) (ok.num 5) h.2.1⟩

theorem addr_inRange {r : Rep} (ok : Ok r) {x : Fin 6 → ℝ} {v : Vox} (h : getVoxelFromPose r x = some v) :
    InRange (sizesOf r.num) v := by
  rw [sizes_inRange ok]
  intro i
  rw [((getVoxel_eq ok x v).1 h).2 i]
  exact address_lt ok x i

theorem Good.dataFits {adj r s} (h : Good adj r s) : Fits r.data.sizes := by
  rw [h.sizes]; exact fitsGrid_fits h.ok h.fits

theorem Good.get {adj r s} (h : Good adj r s) {u : Vox} (hu : InRange (sizesOf r.num) u) :
    Workspace.get r.data u = some (s u) := by
  rw [get_eq h.dataFits (by rw [h.sizes]; exact hu), h.val u hu]

/-- Good after replacing the data and members that are not part of the grid. -/
theorem Good.next {adj r s r' s'} (h : Good adj r s) (g : SameGrid r r') (sm : Same r.data r'.data)
    (hv : ∀ u, InRange (sizesOf r.num) u → Workspace.val r'.data u = s' u)
    (hs : ∀ u, InRange (sizesOf r.num) u → s' u ≤ 255) : Good adj r' s' where
  ok := ⟨by rw [g.lo, g.hi]; exact h.ok.bounds, by rw [g.lo, g.hi, g.space]; exact h.ok.space,
    by rw [g.num]; exact h.ok.num⟩
  fits := by have := h.fits; unfold FitsGrid at *; rw [g.num]; exact this
  sizes := by rw [sm.sizes, h.sizes, g.num]
  adjust := by rw [sm.adjust, h.adjust]
  minValid := by rw [sm.minValid, h.minValid]
  val := by rw [g.num]; exact hv
  small := by rw [g.num]; exact hs

/-! ## fillHoles -/

theorem mem_interior {s v : Vox} : v ∈ interior s ↔ Inner s v := by
  unfold interior Inner
  simp only [List.mem_flatMap, List.mem_map, List.mem_range'_1]
  constructor
  · rintro ⟨a, ha, b, hb, c, hc, d, hd, e, he, f, hf, rfl⟩
    simp only; omega
  · rintro ⟨ha, hb, hc, hd, he, hf⟩
    exact ⟨v.a, by omega, v.b, by omega, v.c, by omega, v.d, by omega, v.e, by omega, v.f, by omega, rfl⟩

theorem twelve_eq (v : Vox) : twelve v = around v := rfl

theorem inner_inRange {s v : Vox} (h : Inner s v) : InRange s v := by
  unfold Inner at h; unfold InRange; omega

theorem around_inRange {s v : Vox} (h : Inner s v) : ∀ u ∈ around v, InRange s u := by
  unfold Inner at h
  intro u hu
  unfold around at hu
  simp only [List.mem_cons, List.not_mem_nil, or_false] at hu
  unfold InRange
  rcases hu with rfl | rfl | rfl | rfl | rfl | rfl | rfl | rfl | rfl | rfl | rfl | rfl <;>
    simp only <;> omega

theorem sumCovered_eq {w : WDA} {s : Vox → Nat} (l : List Vox) (h : ∀ u ∈ l, Workspace.get w u = some (s u)) :
    sumCovered w l = some ((l.map s).sum, l.countP fun u => decide (s u > 0)) := by
  induction l with
  | nil => rfl
  | cons a l ih =>
    unfold sumCovered
    rw [h a (List.mem_cons_self ..), ih fun u hu => h u (List.mem_cons_of_mem _ hu)]
    by_cases ha : s a > 0
    · simp [ha]
    · have : s a = 0 := by omega
      simp [this]

theorem i32_nat {n : Nat} (h : n < 2 ^ 31) : i32 (n : Int) = n := i32_small (by omega) (by exact_mod_cast h)

theorem sum_le_countP {s : Vox → Nat} {m : Nat} (l : List Vox) (h : ∀ u ∈ l, s u ≤ m) :
    (l.map s).sum ≤ m * l.countP fun u => decide (s u > 0) := by
  induction l with
  | nil => simp
  | cons a l ih =>
    have h1 := h a (List.mem_cons_self ..)
    have h2 := ih fun u hu => h u (List.mem_cons_of_mem _ hu)
    by_cases ha : s a > 0
    · simp only [List.map_cons, List.sum_cons, List.countP_cons, ha, decide_true, if_true]
      rw [Nat.mul_add]; omega
    · have : s a = 0 := by omega
      simp [this] at h2 ⊢; omega

theorem sum_ge_countP {s : Vox → Nat} (l : List Vox) :
    (l.countP fun u => decide (s u > 0)) ≤ (l.map s).sum := by
  induction l with
  | nil => simp
  | cons a l ih =>
    by_cases ha : s a > 0
    · simp only [List.map_cons, List.sum_cons, List.countP_cons, ha, decide_true, if_true]; omega
    · have : s a = 0 := by omega
      simp [this]; exact ih

theorem avg_le {s : Vox → Nat} (l : List Vox) (h : ∀ u ∈ l, s u ≤ 255) :
    (l.map s).sum / (l.countP fun u => decide (s u > 0)) ≤ 255 :=
  Nat.div_le_of_le_mul (by rw [Nat.mul_comm]; exact sum_le_countP l h)

open Classical in
/-- The loop of `fillHoles`. `w` has content `s`; the accumulator has content `t`. -/
theorem fillLoop_spec {adj r s} (hg : Good adj r s) {m : Nat} (hm0 : 0 < m) (hm : m < 2 ^ 31) (l : List Vox)
    (hl : ∀ v ∈ l, Inner (sizesOf r.num) v) (hnd : l.Nodup) (w' : WDA) (n : Nat) (sm : Same r.data w') :
    ∃ w'', fillLoop r.data m l (w', n) = some (w'', n + l.countP fun v =>
        decide (0 < s v ∧ m ≤ coveredAround s v)) ∧ Same r.data w'' ∧
      ∀ u, InRange (sizesOf r.num) u → val w'' u =
        if u ∈ l ∧ 0 < s u ∧ m ≤ coveredAround s u then ((around u).map s).sum / coveredAround s u
        else val w' u := by
  induction l generalizing w' n with
  | nil => exact ⟨w', rfl, sm, fun u _ => by simp⟩
  | cons v l ih =>
    have hv := hl v (List.mem_cons_self ..)
    have hvl : v ∉ l := (List.nodup_cons.1 hnd).1
    have hrange := inner_inRange hv
    have hsum := sumCovered_eq (w := r.data) (s := s) (around v) fun u hu => hg.get (around_inRange hv u hu)
    have havg : ((around v).map s).sum / coveredAround s v ≤ 255 :=
      avg_le (around v) fun u hu => hg.small u (around_inRange hv u hu)
    have hstep : ∃ w1, fillStep r.data m (w', n) v = some (w1, n + if 0 < s v ∧ m ≤ coveredAround s v then 1 else 0) ∧
        Same r.data w1 ∧ ∀ u, InRange (sizesOf r.num) u → val w1 u =
          if u = v ∧ 0 < s v ∧ m ≤ coveredAround s v then ((around v).map s).sum / coveredAround s v
          else val w' u := by
      unfold fillStep
      rw [hg.get hrange]
      simp only [Option.bind_eq_bind, Option.bind_some, twelve_eq, hsum, i32_nat hm]
      by_cases h1 : s v > 0
      · rw [if_pos h1]
        by_cases h2 : m ≤ coveredAround s v
        · have h2' : ((around v).countP fun u => decide (s u > 0) : ℤ) ≥ m := by exact_mod_cast h2
          rw [if_pos h2', if_neg (by unfold coveredAround at h2; omega)]
          obtain ⟨w1, e1, s1, -, -, v1⟩ := setDatum_spec (w := w') (v := v)
            (x := ((around v).map s).sum / coveredAround s v) (by rw [sm.sizes]; exact hg.dataFits)
            (by rw [sm.sizes, hg.sizes]; exact hrange)
          refine ⟨w1, ?_, sm.trans s1, fun u hu => ?_⟩
          · have : (((around v).map s).sum / ((around v).countP fun u => decide (s u > 0))) % 256 =
                ((around v).map s).sum / coveredAround s v := Nat.mod_eq_of_lt (by unfold coveredAround at havg; omega)
            rw [this, e1, if_pos ⟨h1, h2⟩]; rfl
          · rw [v1 u (by rw [sm.sizes, hg.sizes]; exact hu)]
            by_cases hu' : u = v
            · rw [if_pos hu', if_pos ⟨hu', h1, h2⟩]
            · rw [if_neg hu', if_neg fun h => hu' h.1]
        · have h2' : ¬ ((around v).countP fun u => decide (s u > 0) : ℤ) ≥ m := by
            intro h; exact h2 (by unfold coveredAround; exact_mod_cast h)
          rw [if_neg h2', if_neg fun h => h2 h.2]
          exact ⟨w', rfl, sm, fun u _ => by rw [if_neg fun h => h2 h.2.2]⟩
      · rw [if_neg h1, if_neg fun h => h1 h.1]
        exact ⟨w', rfl, sm, fun u _ => by rw [if_neg fun h => h1 h.2.1]⟩
    obtain ⟨w1, e1, s1, v1⟩ := hstep
    obtain ⟨w2, e2, s2, v2⟩ := ih (fun u hu => hl u (List.mem_cons_of_mem _ hu)) (List.nodup_cons.1 hnd).2 w1 _ s1
    refine ⟨w2, ?_, s2, fun u hu => ?_⟩
    · unfold fillLoop
      rw [e1, Option.bind_some, e2, List.countP_cons]
      simp only [decide_eq_true_eq]
      congr 2; omega
    · rw [v2 u hu, v1 u hu]
      by_cases huv : u = v
      · subst huv
        rw [if_neg fun h => hvl h.1]
        by_cases hc : 0 < s u ∧ m ≤ coveredAround s u
        · rw [if_pos ⟨rfl, hc⟩, if_pos ⟨List.mem_cons_self .., hc⟩]
        · rw [if_neg fun h => hc h.2, if_neg fun h => hc h.2]
      · rw [if_neg (c := u = v ∧ _) fun h => huv h.1]
        simp only [List.mem_cons, huv, false_or]

theorem nodup_flatMap_of {α β : Type} (l : List α) (hl : l.Nodup) (f : α → List β) (g : β → α)
    (h1 : ∀ i ∈ l, (f i).Nodup) (h2 : ∀ i, ∀ b ∈ f i, g b = i) : (l.flatMap f).Nodup := by
  rw [List.nodup_flatMap]
  refine ⟨h1, hl.imp ?_⟩
  intro i j hij
  simp only [Function.onFun, List.disjoint_left]
  intro b hb hb'
  exact hij ((h2 i b hb).symm.trans (h2 j b hb'))

theorem nodup_interior (s : Vox) : (interior s).Nodup := by
  unfold interior
  refine nodup_flatMap_of _ List.nodup_range' _ Vox.a (fun a _ => ?_) ?_
  · refine nodup_flatMap_of _ List.nodup_range' _ Vox.b (fun b _ => ?_) ?_
    · refine nodup_flatMap_of _ List.nodup_range' _ Vox.c (fun c _ => ?_) ?_
      · refine nodup_flatMap_of _ List.nodup_range' _ Vox.d (fun d _ => ?_) ?_
        · refine nodup_flatMap_of _ List.nodup_range' _ Vox.e (fun e _ => ?_) ?_
          · exact List.Nodup.map (fun x y h => by simpa using h) List.nodup_range'
          · intro i b hb; simp only [List.mem_map] at hb; obtain ⟨_, _, rfl⟩ := hb; rfl
        · intro i b hb
          simp only [List.mem_map, List.mem_flatMap] at hb
          obtain ⟨_, _, _, _, rfl⟩ := hb; rfl
      · intro i b hb
        simp only [List.mem_map, List.mem_flatMap] at hb
        obtain ⟨_, _, _, _, _, _, rfl⟩ := hb; rfl
    · intro i b hb
      simp only [List.mem_map, List.mem_flatMap] at hb
      obtain ⟨_, _, _, _, _, _, _, _, rfl⟩ := hb; rfl
  · intro i b hb
    simp only [List.mem_map, List.mem_flatMap] at hb
    obtain ⟨_, _, _, _, _, _, _, _, _, _, rfl⟩ := hb; rfl

open Classical in
theorem fillHoles_spec {adj r s} (hg : Good adj r s) {m : Nat} (hm : m < 2 ^ 31) :
    ∃ r' n, fillHoles m r = some (r', n) ∧
      n = (interior (sizesOf r.num)).countP (fun v => decide (0 < s v ∧ max m 1 ≤ coveredAround s v)) ∧
      SameGrid r r' ∧ r'.loops = r.loops ∧ r'.achLo = r.achLo ∧ r'.achHi = r.achHi ∧
      Good adj r' (effect (getVoxelFromPose r) (sizesOf r.num) adj s (.fillHoles m)) := by
  have hm' : (if m = 0 then 1 else m) = max m 1 := by split <;> omega
  obtain ⟨w, e, sm, hv⟩ := fillLoop_spec hg (m := max m 1) (by omega) (by omega) (interior (sizesOf r.num))
    (fun v hv => mem_interior.1 hv) (nodup_interior _) (Workspace.clone r.data) 0 ⟨rfl, rfl, rfl⟩
  refine ⟨{ r with data := w }, _, ?_, rfl, ⟨rfl, rfl, rfl, rfl, rfl, rfl⟩, rfl, rfl, rfl, ?_⟩
  · unfold fillHoles
    simp only [hm', e, Option.bind_eq_bind, Option.bind_some, Nat.zero_add]; rfl
  · refine hg.next ⟨rfl, rfl, rfl, rfl, rfl, rfl⟩ sm (fun u hu => ?_) (fun u hu => ?_)
    · rw [hv u hu]
      unfold effect Smoothed
      simp only [mem_interior]
      split
      · rfl
      · rw [clone_val (by rw [hg.sizes]; exact hu), hg.val u hu]
    · unfold effect
      simp only
      split
      · rename_i h
        exact avg_le (around u) fun x hx => hg.small x (around_inRange h.1 x hx)
      · exact hg.small u hu

/-! ## One call -/

theorem sinceClear_append (cs : List Call) (c : Call) :
    sinceClear (cs ++ [c]) = match c with | .clear => [] | _ => sinceClear cs ++ [c] := by
  unfold sinceClear
  cases c <;> simp [List.takeWhile]

theorem callStep_spec {adj r s} (hg : Good adj r s) (c : Call) (hc : Valid r c) :
    ∃ r', callStep r c = some r' ∧ SameGrid r r' ∧
      Good adj r' (effect (getVoxelFromPose r) (sizesOf r.num) adj s c) ∧
      (c = .clear → r'.loops = 0 ∧ r'.achLo = (fun _ => fltMax) ∧ r'.achHi = fun _ => -fltMax) ∧
      (c ≠ .clear → r'.loops = r.loops + (if counts c then 1 else 0) ∧
        (∀ x, poseOf c = some x → r'.achLo = (fun i => min (r.achLo i) (x i)) ∧
          r'.achHi = fun i => max (r.achHi i) (x i)) ∧
        (poseOf c = none → r'.achLo = r.achLo ∧ r'.achHi = r.achHi)) := by
  have hlo : ∀ x : Fin 6 → ℝ, (achieve x r).achLo = fun i => min (r.achLo i) (x i) := by
    intro x; funext i; unfold achieve; simp only
    by_cases h : x i < r.achLo i
    · rw [if_pos h, min_eq_right h.le]
    · rw [if_neg h, min_eq_left (not_lt.1 h)]
  have hhi : ∀ x : Fin 6 → ℝ, (achieve x r).achHi = fun i => max (r.achHi i) (x i) := by
    intro x; funext i; unfold achieve; simp only
    by_cases h : x i > r.achHi i
    · rw [if_pos h, max_eq_right h.le]
    · rw [if_neg h, max_eq_left (not_lt.1 h)]
  have haddr : ∀ x y : Fin 6 → ℝ, getVoxelFromPose (achieve y r) x = getVoxelFromPose r x := fun x y =>
    SameGrid.addr (r := r) (r' := achieve y r) ⟨rfl, rfl, rfl, rfl, rfl, rfl⟩ x
  have hin : ∀ x v, getVoxelFromPose r x = some v → InRange (sizesOf r.num) v := fun x v h =>
    addr_inRange hg.ok h
  -- a call that records a pose and replaces the data
  have key : ∀ (x : Fin 6 → ℝ) (d : WDA) (s' : Vox → Nat), Same r.data d →
      (∀ u, InRange (sizesOf r.num) u → val d u = s' u) → (∀ u, InRange (sizesOf r.num) u → s' u ≤ 255) →
      ∀ r', r' = { achieve x r with data := d, loops := r.loops + 1 } →
      SameGrid r r' ∧ Good adj r' s' ∧ r'.loops = r.loops + 1 ∧
        r'.achLo = (fun i => min (r.achLo i) (x i)) ∧ r'.achHi = fun i => max (r.achHi i) (x i) := by
    intro x d s' sm hv hs r' hr'
    subst hr'
    exact ⟨⟨rfl, rfl, rfl, rfl, rfl, rfl⟩, hg.next ⟨rfl, rfl, rfl, rfl, rfl, rfl⟩ sm hv hs, rfl, hlo x, hhi x⟩
  have wrap : ∀ (c : Call) (x : Fin 6 → ℝ) (d : WDA) (s' : Vox → Nat), Same r.data d →
      (∀ u, InRange (sizesOf r.num) u → val d u = s' u) → (∀ u, InRange (sizesOf r.num) u → s' u ≤ 255) →
      c ≠ .clear → poseOf c = some x → counts c = true →
      callStep r c = some { achieve x r with data := d, loops := r.loops + 1 } →
      s' = effect (getVoxelFromPose r) (sizesOf r.num) adj s c →
      ∃ r', callStep r c = some r' ∧ SameGrid r r' ∧
      Good adj r' (effect (getVoxelFromPose r) (sizesOf r.num) adj s c) ∧
      (c = .clear → r'.loops = 0 ∧ r'.achLo = (fun _ => fltMax) ∧ r'.achHi = fun _ => -fltMax) ∧
      (c ≠ .clear → r'.loops = r.loops + (if counts c then 1 else 0) ∧
        (∀ x, poseOf c = some x → r'.achLo = (fun i => min (r.achLo i) (x i)) ∧
          r'.achHi = fun i => max (r.achHi i) (x i)) ∧
        (poseOf c = none → r'.achLo = r.achLo ∧ r'.achHi = r.achHi)) := by
    intro c x d s' sm hv hs hne hp hct he hse
    obtain ⟨g, G, l, a, b⟩ := key x d s' sm hv hs _ rfl
    refine ⟨_, he, g, hse ▸ G, fun h => absurd h hne, fun _ => ⟨by rw [hct]; exact l, fun y hy => ?_, fun h => ?_⟩⟩
    · rw [hp] at hy; cases hy; exact ⟨a, b⟩
    · rw [hp] at h; cases h
  have hfd := hg.dataFits
  cases c with
  | addPose x =>
    cases ha : getVoxelFromPose r x with
    | none =>
      refine wrap _ x r.data s (Same.refl _) hg.val hg.small (by simp) rfl rfl ?_ (by simp [effect, ha])
      simp only [callStep, addPose, dataIncrease, haddr, ha]; rfl
    | some v =>
      have hv := hin x v ha
      obtain ⟨w, e, sm, -, c1, c2, c3⟩ := increaseDatum_spec hfd (by rw [hg.sizes]; exact hv)
      have hval := hg.val v hv
      have hstep : callStep r (.addPose x) = some { achieve x r with data := w, loops := r.loops + 1 } := by
        have e' : increaseDatum (achieve x r).data v = some w := e
        simp only [callStep, addPose, dataIncrease, haddr, ha, e']; rfl
      rw [hg.minValid] at c2
      rw [hval, hg.sizes] at c1 c2 c3
      refine wrap _ x w (effect (getVoxelFromPose r) (sizesOf r.num) adj s (.addPose x)) sm
        (fun u hu => ?_) (fun u hu => ?_) (by simp) rfl rfl hstep rfl
      all_goals simp only [effect, ha]
      · by_cases h255 : s v < 255
        · rw [if_pos h255, (c1 h255).2 u hu]
          split
          · rfl
          · exact hg.val u hu
        · rw [if_neg h255]
          by_cases hadj : adj = true
          · rw [if_pos hadj, (c2 h255 (by rw [hg.adjust, hadj])).2 u hu, hg.val u hu]
            unfold Workspace.Spec.halve
            split
            · omega
            · rfl
          · rw [if_neg hadj, (c3 h255 (by rw [hg.adjust]; simpa using hadj)).2 u hu, hg.val u hu]
      · have := hg.small u hu
        have := hg.small v hv
        by_cases h255 : s v < 255
        · rw [if_pos h255]; split <;> omega
        · rw [if_neg h255]
          by_cases hadj : adj = true
          · rw [if_pos hadj]; beta_reduce; split <;> omega
          · rw [if_neg hadj]; assumption
  | setIfLower x e =>
    cases ha : getVoxelFromPose r x with
    | none =>
      refine wrap _ x r.data s (Same.refl _) hg.val hg.small (by simp) rfl rfl ?_ (by simp [effect, ha])
      simp only [callStep, setEntryIfLower, dataGet, dataSet, haddr, ha]
      simp only [Option.bind_eq_bind, Option.bind_some]
      split <;> rfl
    | some v =>
      have hv := hin x v ha
      have hget : Workspace.get (achieve x r).data v = some (s v) := hg.get hv
      by_cases hlt : s v < e
      · obtain ⟨w, e1, sm, -, -, hw⟩ := setDatum_spec (x := e) hfd (by rw [hg.sizes]; exact hv)
        have e1' : setDatum (achieve x r).data v e = some w := e1
        refine wrap _ x w (effect (getVoxelFromPose r) (sizesOf r.num) adj s (.setIfLower x e)) sm
          (fun u hu => ?_) (fun u hu => ?_) (by simp) rfl rfl ?_ rfl
        · simp only [effect, ha]
          rw [hw u (by rw [hg.sizes]; exact hu), hg.val u hu, max_eq_right hlt.le]
        · have := hg.small u hu
          have hc' : e ≤ 255 := hc
          simp only [effect, ha]; split <;> omega
        · simp only [callStep, setEntryIfLower, dataGet, dataSet, haddr, ha, hget, Option.bind_eq_bind,
            Option.bind_some, if_pos hlt, e1']
          rfl
      · refine wrap _ x r.data s (Same.refl _) hg.val hg.small (by simp) rfl rfl ?_ ?_
        · simp only [callStep, setEntryIfLower, dataGet, dataSet, haddr, ha, hget, Option.bind_eq_bind,
            Option.bind_some, if_neg hlt]
          rfl
        · simp only [effect, ha]
          funext u
          split
          · rename_i h; subst h; omega
          · rfl
  | setEntry x e n =>
    cases ha : getVoxelFromPose r x with
    | none =>
      refine wrap _ x r.data s (Same.refl _) hg.val hg.small (by simp) rfl rfl ?_ (by simp [effect, ha])
      simp only [callStep, setEntryCheckNeighbors, haddr, ha]; rfl
    | some v =>
      have hv := hin x v ha
      have hn : ∀ i, (r.num i).toNat + n < 2 ^ 31 := fun i => by
        have := hc.2 i; have := hg.ok.num i; omega
      obtain ⟨w, e1, sm, -, hw⟩ := setDatumCheckNeighbors_spec (w := r.data) (v := v) (x := e) (n := n) hfd
        (by rw [hg.sizes]; exact hv) (by rw [hg.sizes]; exact ⟨hn 0, hn 1, hn 2, hn 3, hn 4, hn 5⟩)
      have e1' : setDatumCheckNeighbors (achieve x r).data v e n = some w := e1
      refine wrap _ x w (effect (getVoxelFromPose r) (sizesOf r.num) adj s (.setEntry x e n)) sm
        (fun u hu => ?_) (fun u hu => ?_) (by simp) rfl rfl ?_ rfl
      · simp only [effect, ha]
        rw [hw u (by rw [hg.sizes]; exact hu), hg.val u hu]
      · have := hg.small u hu
        have := hc.1
        simp only [effect, ha]
        split
        · assumption
        · split
          · exact max_le (by assumption) (by assumption)
          · assumption
      · simp only [callStep, setEntryCheckNeighbors, haddr, ha, e1']; rfl
  | setVoxel v e =>
    have hv : InRange (sizesOf r.num) v := (sizes_inRange hg.ok v).2 hc.1
    obtain ⟨w, e1, sm, -, -, hw⟩ := setDatum_spec (x := e) hfd (by rw [hg.sizes]; exact hv)
    refine ⟨{ r with data := w, loops := r.loops + 1 }, by simp only [callStep, setVoxelEntry, e1]; rfl,
      ⟨rfl, rfl, rfl, rfl, rfl, rfl⟩, hg.next ⟨rfl, rfl, rfl, rfl, rfl, rfl⟩ sm ?_ ?_, by simp,
      fun _ => ⟨rfl, by simp [poseOf], fun _ => ⟨rfl, rfl⟩⟩⟩
    · intro u hu
      simp only [effect]
      rw [hw u (by rw [hg.sizes]; exact hu), hg.val u hu]
    · intro u hu
      have := hg.small u hu
      have := hc.2
      simp only [effect]; split <;> assumption
  | binarize =>
    obtain ⟨w, e1, sm, -, -, hw⟩ := binarize_spec hfd
    refine ⟨{ r with data := w }, by simp only [callStep, binarizeRep, e1]; rfl,
      ⟨rfl, rfl, rfl, rfl, rfl, rfl⟩, hg.next ⟨rfl, rfl, rfl, rfl, rfl, rfl⟩ sm ?_ ?_, by simp,
      fun _ => ⟨rfl, by simp [poseOf], fun _ => ⟨rfl, rfl⟩⟩⟩
    · intro u hu
      simp only [effect]
      rw [hw u (by rw [hg.sizes]; exact hu), hg.val u hu, hg.minValid]
    · intro u hu
      have := hg.small u hu
      simp only [effect]; omega
  | fillHoles m =>
    obtain ⟨r', n, e, -, g, h1, h2, h3, G⟩ := fillHoles_spec hg (m := m) hc
    refine ⟨r', by simp only [callStep, e]; rfl, g, G, by simp, fun _ => ⟨h1, by simp [poseOf], fun _ => ⟨h2, h3⟩⟩⟩
  | clear =>
    refine ⟨clearRep r, rfl, ⟨rfl, rfl, rfl, rfl, rfl, rfl⟩,
      hg.next ⟨rfl, rfl, rfl, rfl, rfl, rfl⟩ ⟨rfl, rfl, rfl⟩ ?_ ?_, fun _ => ⟨rfl, rfl, rfl⟩, by simp⟩
    · intro u hu
      exact clear_val (by rw [hg.sizes]; exact hu)
    · intro u _; simp [effect]
  | goOnWithClone =>
    refine ⟨cloneRep r, rfl, ⟨rfl, rfl, rfl, rfl, rfl, rfl⟩,
      hg.next ⟨rfl, rfl, rfl, rfl, rfl, rfl⟩ ⟨rfl, rfl, rfl⟩ ?_ ?_, by simp,
      fun _ => ⟨rfl, by simp [poseOf], fun _ => ⟨rfl, rfl⟩⟩⟩
    · intro u hu
      simp only [effect]
      rw [← hg.val u hu]
      exact clone_val (by rw [hg.sizes]; exact hu)
    · intro u hu; exact hg.small u hu

/-! ## Histories -/

theorem runCalls_append (cs ds : List Call) (r : Rep) :
    runCalls r (cs ++ ds) = (runCalls r cs).bind (runCalls · ds) := by
  induction cs generalizing r with
  | nil => rfl
  | cons c cs ih =>
    simp only [List.cons_append, runCalls]
    cases callStep r c with
    | none => rfl
    | some r1 => simp only [Option.bind_some, ih]

theorem valid_grid {r r' : Rep} (g : SameGrid r r') (c : Call) (h : Valid r c) : Valid r' c := by
  cases c <;> simp only [Valid, IsIndex] at * <;> (try rw [g.num]) <;> assumption

theorem runCalls_spec {adj r} (hg : Good adj r fun _ => 0) (hl : r.loops = 0)
    (ha : r.achLo = fun _ => fltMax) (hb : r.achHi = fun _ => -fltMax) (cs : List Call)
    (hc : ∀ c ∈ cs, Valid r c) :
    ∃ r', runCalls r cs = some r' ∧ SameGrid r r' ∧
      Good adj r' (content (getVoxelFromPose r) (sizesOf r.num) adj cs) ∧
      r'.loops = (sinceClear cs).countP counts ∧
      r'.achLo = (fun i => (recorded cs).foldl (fun m x => min m (x i)) fltMax) ∧
      r'.achHi = fun i => (recorded cs).foldl (fun m x => max m (x i)) (-fltMax) := by
  induction cs using List.reverseRecOn with
  | nil => exact ⟨r, rfl, ⟨rfl, rfl, rfl, rfl, rfl, rfl⟩, hg, hl, ha, hb⟩
  | append_singleton cs c ih =>
    obtain ⟨r1, e1, g1, G1, l1, a1, b1⟩ := ih fun c' h => hc c' (List.mem_append_left _ h)
    have hv := valid_grid g1 c (hc c (by simp))
    obtain ⟨r2, e2, g2, G2, hcl, hncl⟩ := callStep_spec G1 c hv
    have haddr : getVoxelFromPose r1 = getVoxelFromPose r := funext fun x => g1.addr x
    rw [haddr, g1.num] at G2
    refine ⟨r2, ?_, g1.trans g2, ?_, ?_⟩
    · rw [runCalls_append, e1]
      simp only [Option.bind_some, runCalls, e2]
    · unfold content at G2 ⊢
      rw [List.foldl_append]; exact G2
    · by_cases hclear : c = .clear
      · subst hclear
        obtain ⟨h1, h2, h3⟩ := hcl rfl
        unfold recorded
        rw [sinceClear_append]
        exact ⟨h1, h2, h3⟩
      · obtain ⟨h1, h2, h3⟩ := hncl hclear
        have hs : sinceClear (cs ++ [c]) = sinceClear cs ++ [c] := by
          rw [sinceClear_append]; cases c <;> first | rfl | exact absurd rfl hclear
        unfold recorded at a1 b1 ⊢
        rw [hs, List.countP_append, List.filterMap_append]
        refine ⟨by rw [h1, l1]; simp [List.countP_cons], ?_, ?_⟩
        all_goals
          cases hp : poseOf c with
          | none =>
            obtain ⟨ea, eb⟩ := h3 hp
            simp [List.filterMap_cons, hp, ea, eb, a1, b1]
          | some x =>
            obtain ⟨ea, eb⟩ := h2 x hp
            simp [List.filterMap_cons, hp, ea, eb, a1, b1]

theorem init_good {b stepT stepR lo hi adj r} (h : initialize' b stepT stepR lo hi adj = some r)
    (hf : FitsGrid r) : Good adj r fun _ => 0 := by
  obtain ⟨-, -, ok, -, -, -, -, -, ed, -⟩ := initialize_eq h
  refine ⟨ok, hf, by rw [ed]; rfl, by rw [ed]; rfl, by rw [ed]; rfl, fun u _ => by rw [ed]; rfl, by simp⟩

theorem reach {b stepT stepR lo hi adj r} (h : initialize' b stepT stepR lo hi adj = some r)
    (hf : FitsGrid r) (cs : List Call) (hc : ∀ c ∈ cs, Valid r c) :
    ∃ r', runCalls r cs = some r' ∧ SameGrid r r' ∧
      Good adj r' (content (getVoxelFromPose r) (sizesOf r.num) adj cs) ∧
      r'.loops = (sinceClear cs).countP counts ∧
      r'.achLo = (fun i => (recorded cs).foldl (fun m x => min m (x i)) fltMax) ∧
      r'.achHi = fun i => (recorded cs).foldl (fun m x => max m (x i)) (-fltMax) := by
  obtain ⟨-, -, -, -, -, -, -, -, -, hl, -, ha, hb⟩ := initialize_eq h
  exact runCalls_spec (init_good h hf) hl ha hb cs hc

theorem foldl_min_spec {α : Type} (f : α → ℝ) (l : List α) (m : ℝ) :
    l.foldl (fun m x => min m (f x)) m ≤ m ∧ (∀ x ∈ l, l.foldl (fun m x => min m (f x)) m ≤ f x) ∧
      (l.foldl (fun m x => min m (f x)) m = m ∨ ∃ x ∈ l, l.foldl (fun m x => min m (f x)) m = f x) := by
  induction l generalizing m with
  | nil => simp
  | cons a l ih =>
    obtain ⟨h1, h2, h3⟩ := ih (min m (f a))
    simp only [List.foldl_cons]
    refine ⟨h1.trans (min_le_left _ _), ?_, ?_⟩
    · intro x hx
      rcases List.mem_cons.1 hx with rfl | hx
      · exact h1.trans (min_le_right _ _)
      · exact h2 x hx
    · rcases h3 with h3 | ⟨x, hx, h3⟩
      · rcases min_choice m (f a) with h | h
        · left; rw [h3, h]
        · right; exact ⟨a, List.mem_cons_self .., by rw [h3, h]⟩
      · right; exact ⟨x, List.mem_cons_of_mem _ hx, h3⟩

theorem foldl_max_spec {α : Type} (f : α → ℝ) (l : List α) (m : ℝ) :
    m ≤ l.foldl (fun m x => max m (f x)) m ∧ (∀ x ∈ l, f x ≤ l.foldl (fun m x => max m (f x)) m) ∧
      (l.foldl (fun m x => max m (f x)) m = m ∨ ∃ x ∈ l, l.foldl (fun m x => max m (f x)) m = f x) := by
  induction l generalizing m with
  | nil => simp
  | cons a l ih =>
    obtain ⟨h1, h2, h3⟩ := ih (max m (f a))
    simp only [List.foldl_cons]
    refine ⟨(le_max_left _ _).trans h1, ?_, ?_⟩
    · intro x hx
      rcases List.mem_cons.1 hx with rfl | hx
      · exact (le_max_right _ _).trans h1
      · exact h2 x hx
    · rcases h3 with h3 | ⟨x, hx, h3⟩
      · rcases max_choice m (f a) with h | h
        · left; rw [h3, h]
        · right; exact ⟨a, List.mem_cons_self .., by rw [h3, h]⟩
      · right; exact ⟨x, List.mem_cons_of_mem _ hx, h3⟩

/-! ## Facts on contents -/

section
open Classical

theorem effect_addPose_none {addr sz adj} (s : Vox → Nat) (x : Fin 6 → ℝ) (h : addr x = none) :
    effect addr sz adj s (.addPose x) = s := by simp only [effect, h]

theorem effect_addPose_some {addr sz adj} (s : Vox → Nat) (x : Fin 6 → ℝ) (v u : Vox) (h : addr x = some v) :
    effect addr sz adj s (.addPose x) u =
      if s v < 255 then (if u = v then s v + 1 else s u)
      else if adj = true then (if s u > 1 then s u / 2 else s u) else s u := by
  simp only [effect, h]
  by_cases h1 : s v < 255
  · rw [if_pos h1, if_pos h1]
  · rw [if_neg h1, if_neg h1]
    by_cases h2 : adj = true
    · rw [if_pos h2, if_pos h2]
    · rw [if_neg h2, if_neg h2]

theorem effect_setIfLower_none {addr sz adj} (s : Vox → Nat) (x : Fin 6 → ℝ) (e : Nat) (h : addr x = none) :
    effect addr sz adj s (.setIfLower x e) = s := by simp only [effect, h]

theorem effect_setIfLower_some {addr sz adj} (s : Vox → Nat) (x : Fin 6 → ℝ) (e : Nat) (v u : Vox)
    (h : addr x = some v) :
    effect addr sz adj s (.setIfLower x e) u = if u = v then max (s v) e else s u := by
  simp only [effect, h]

theorem effect_setEntry_none {addr sz adj} (s : Vox → Nat) (x : Fin 6 → ℝ) (e n : Nat) (h : addr x = none) :
    effect addr sz adj s (.setEntry x e n) = s := by simp only [effect, h]

theorem effect_setEntry_some {addr sz adj} (s : Vox → Nat) (x : Fin 6 → ℝ) (e n : Nat) (v u : Vox)
    (h : addr x = some v) :
    effect addr sz adj s (.setEntry x e n) u =
      if u = v then e else if InCube n v u then max (s u) e else s u := by
  simp only [effect, h]

theorem effect_keeps {addr sz adj} (s : Vox → Nat) (c : Call) (u : Vox) (hne : ¬ Erases c) (h : 0 < s u) :
    0 < effect addr sz adj s c u := by
  cases c with
  | addPose x =>
    cases ha : addr x with
    | none => rw [effect_addPose_none s x ha]; exact h
    | some v =>
      rw [effect_addPose_some s x v u ha]
      split
      · split <;> omega
      · split
        · split <;> omega
        · exact h
  | setIfLower x e =>
    cases ha : addr x with
    | none => rw [effect_setIfLower_none s x e ha]; exact h
    | some v =>
      rw [effect_setIfLower_some s x e v u ha]
      split
      · rename_i hu; subst hu; omega
      · exact h
  | setEntry x e n =>
    have : 0 < e := Nat.pos_of_ne_zero hne
    cases ha : addr x with
    | none => rw [effect_setEntry_none s x e n ha]; exact h
    | some v =>
      rw [effect_setEntry_some s x e n v u ha]
      split
      · exact this
      · split
        · exact lt_of_lt_of_le h (le_max_left _ _)
        · exact h
  | setVoxel v e =>
    have : 0 < e := Nat.pos_of_ne_zero hne
    simp only [effect]
    split <;> assumption
  | binarize => simp only [effect]; omega
  | fillHoles m =>
    simp only [effect]
    split
    · rename_i hs
      have h1 : 0 < coveredAround s u := by have := hs.2.2; omega
      exact Nat.div_pos (sum_ge_countP (around u)) h1
    · exact h
  | clear => exact absurd trivial hne
  | goOnWithClone => exact h

theorem effect_sound {addr sz adj} (s : Vox → Nat) (c : Call) (u : Vox) (h0 : s u = 0)
    (h : 0 < effect addr sz adj s c u) : Writes addr u c := by
  cases c with
  | addPose x =>
    cases ha : addr x with
    | none => rw [effect_addPose_none s x ha] at h; omega
    | some v =>
      rw [effect_addPose_some s x v u ha] at h
      split at h
      · split at h
        · rename_i hu; rw [hu]; exact ha
        · omega
      · split at h
        · split at h <;> omega
        · omega
  | setIfLower x e =>
    cases ha : addr x with
    | none => rw [effect_setIfLower_none s x e ha] at h; omega
    | some v =>
      rw [effect_setIfLower_some s x e v u ha] at h
      split at h
      · rename_i hu; subst hu; exact ⟨ha, by omega⟩
      · omega
  | setEntry x e n =>
    cases ha : addr x with
    | none => rw [effect_setEntry_none s x e n ha] at h; omega
    | some v =>
      rw [effect_setEntry_some s x e n v u ha] at h
      split at h
      · rename_i hu; subst hu
        exact ⟨⟨u, ha, by unfold InCube Workspace.Spec.near; omega⟩, h⟩
      · split at h
        · rename_i hc; exact ⟨⟨v, ha, hc⟩, by omega⟩
        · omega
  | setVoxel v e =>
    simp only [effect] at h
    split at h
    · rename_i hu; exact ⟨hu.symm, h⟩
    · omega
  | binarize => simp only [effect] at h; omega
  | fillHoles m =>
    simp only [effect] at h
    split at h
    · rename_i hs; have := hs.2.1; omega
    · omega
  | clear => simp only [effect] at h; omega
  | goOnWithClone => simp only [effect] at h; omega

theorem effect_writes {addr sz adj} (s : Vox → Nat) (c : Call) (u : Vox) (hw : Writes addr u c) :
    0 < effect addr sz adj s c u := by
  cases c with
  | addPose x =>
    rw [effect_addPose_some s x u u hw]
    split
    · rw [if_pos rfl]; omega
    · split
      · split <;> omega
      · omega
  | setIfLower x e =>
    rw [effect_setIfLower_some s x e u u hw.1, if_pos rfl]
    have := hw.2; omega
  | setEntry x e n =>
    obtain ⟨⟨v, hv, hc⟩, he⟩ := hw
    rw [effect_setEntry_some s x e n v u hv]
    split
    · exact he
    · first
      | (rw [if_pos hc]; exact lt_of_lt_of_le he (le_max_right _ _))
      | exact lt_of_lt_of_le he (le_max_right _ _)
  | setVoxel v e =>
    obtain ⟨rfl, he⟩ := hw
    simp only [effect, if_true]; exact he
  | _ => exact absurd hw (by simp [Writes])

end

end Simox.Wsr
