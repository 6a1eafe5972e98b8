import Verif.Workspace.Spec
import Mathlib.Data.List.Nodup

namespace Simox.Workspace

open Spec

/-! ## Index arithmetic -/

theorem u32_of_lt {n : Nat} (h : n < 2 ^ 32) : u32 n = n := Nat.mod_eq_of_lt h

theorem radix_lt {a b c A B C : Nat} (ha : a < A) (hb : b < B) (hc : c < C) :
    (a * B + b) * C + c < A * B * C := by
  have h1 : a * B + b + 1 ≤ A * B := by
    have : (a + 1) * B ≤ A * B := Nat.mul_le_mul_right _ ha
    rw [Nat.add_mul] at this; omega
  have h2 : (a * B + b + 1) * C ≤ A * B * C := Nat.mul_le_mul_right _ h1
  rw [Nat.add_mul _ 1 C] at h2; omega

theorem radix_inj {a b c a' b' c' B C : Nat} (hb : b < B) (hc : c < C) (hb' : b' < B) (hc' : c' < C)
    (h : (a * B + b) * C + c = (a' * B + b') * C + c') : a = a' ∧ b = b' ∧ c = c' := by
  have key : ∀ {x y z w D : Nat}, y < D → w < D → x * D + y = z * D + w → x = z ∧ y = w := by
    intro x y z w D hy hw h
    have hD : 0 < D := by omega
    have e1 : (x * D + y) / D = x := by
      rw [Nat.mul_comm, Nat.mul_add_div hD, Nat.div_eq_of_lt hy, Nat.add_zero]
    have e2 : (z * D + w) / D = z := by
      rw [Nat.mul_comm, Nat.mul_add_div hD, Nat.div_eq_of_lt hw, Nat.add_zero]
    have : x = z := by rw [← e1, ← e2, h]
    subst this
    exact ⟨rfl, by omega⟩
  obtain ⟨h1, h2⟩ := key hc hc' h
  obtain ⟨h3, h4⟩ := key hb hb' h1
  exact ⟨h3, h4, h2⟩

theorem mid_lt {A B C : Nat} (hA : 0 < A) (h : A * B * C < 2 ^ 32) : B * C < 2 ^ 32 := by
  have : 1 * (B * C) ≤ A * (B * C) := Nat.mul_le_mul_right _ hA
  rw [Nat.mul_assoc] at h; omega

theorem posTr_eq {s v : Vox} (hs : Fits s) (ha : v.a < s.a) (hb : v.b < s.b) (hc : v.c < s.c) :
    posTr s v = (v.a * s.b + v.b) * s.c + v.c ∧ posTr s v < allocTr s := by
  have h1 := radix_lt ha hb hc
  have h2 : sizeTr0 s = s.b * s.c := u32_of_lt (mid_lt (by omega) hs.1)
  have h3 : v.a * (s.b * s.c) + v.b * s.c + v.c = (v.a * s.b + v.b) * s.c + v.c := by
    rw [Nat.add_mul, Nat.mul_assoc]
  have h4 : posTr s v = (v.a * s.b + v.b) * s.c + v.c := by
    unfold posTr sizeTr1; rw [h2, h3]; exact u32_of_lt (Nat.lt_trans h1 hs.1)
  refine ⟨h4, ?_⟩
  rw [h4]; unfold allocTr; rw [u32_of_lt hs.1]; exact h1

theorem posRot_eq {s v : Vox} (hs : Fits s) (ha : v.d < s.d) (hb : v.e < s.e) (hc : v.f < s.f) :
    posRot s v = (v.d * s.e + v.e) * s.f + v.f ∧ posRot s v < allocRot s := by
  have h1 := radix_lt ha hb hc
  have h2 : sizeRot0 s = s.e * s.f := u32_of_lt (mid_lt (by omega) hs.2)
  have h3 : v.d * (s.e * s.f) + v.e * s.f + v.f = (v.d * s.e + v.e) * s.f + v.f := by
    rw [Nat.add_mul, Nat.mul_assoc]
  have h4 : posRot s v = (v.d * s.e + v.e) * s.f + v.f := by
    unfold posRot sizeRot1; rw [h2, h3]; exact u32_of_lt (Nat.lt_trans h1 hs.2)
  refine ⟨h4, ?_⟩
  rw [h4]; unfold allocRot; rw [u32_of_lt hs.2]; exact h1

theorem posTr_inj {s u v : Vox} (hs : Fits s) (hu : InRange s u) (hv : InRange s v)
    (h : posTr s u = posTr s v) : u.a = v.a ∧ u.b = v.b ∧ u.c = v.c := by
  obtain ⟨u1, u2, u3, _⟩ := hu
  obtain ⟨v1, v2, v3, _⟩ := hv
  rw [(posTr_eq hs u1 u2 u3).1, (posTr_eq hs v1 v2 v3).1] at h
  exact radix_inj u2 u3 v2 v3 h

theorem posRot_inj {s u v : Vox} (hs : Fits s) (hu : InRange s u) (hv : InRange s v)
    (h : posRot s u = posRot s v) : u.d = v.d ∧ u.e = v.e ∧ u.f = v.f := by
  obtain ⟨_, _, _, u1, u2, u3⟩ := hu
  obtain ⟨_, _, _, v1, v2, v3⟩ := hv
  rw [(posRot_eq hs u1 u2 u3).1, (posRot_eq hs v1 v2 v3).1] at h
  exact radix_inj u2 u3 v2 v3 h

theorem inRange_tr {s v : Vox} (hs : Fits s) (h : InRange s v) : posTr s v < allocTr s :=
  (posTr_eq hs h.1 h.2.1 h.2.2.1).2
theorem inRange_rot {s v : Vox} (hs : Fits s) (h : InRange s v) : posRot s v < allocRot s :=
  (posRot_eq hs h.2.2.2.1 h.2.2.2.2.1 h.2.2.2.2.2).2

theorem vox_eq {s u v : Vox} (hs : Fits s) (hu : InRange s u) (hv : InRange s v)
    (h1 : posTr s u = posTr s v) (h2 : posRot s u = posRot s v) : u = v := by
  obtain ⟨a, b, c⟩ := posTr_inj hs hu hv h1
  obtain ⟨d, e, f⟩ := posRot_inj hs hu hv h2
  cases u; cases v; simp_all

/-! ## Reading -/

/-- The value read, ignoring undefined behaviour (only used for in-range voxels). -/
def val (w : WDA) (v : Vox) : Nat :=
  match w.data (posTr w.sizes v) with
  | none => 0
  | some blk => blk (posRot w.sizes v)

theorem get_eq {w : WDA} {v : Vox} (hs : Fits w.sizes) (hv : InRange w.sizes v) :
    get w v = some (val w v) := by
  unfold get val
  rw [if_pos (inRange_tr hs hv)]
  cases w.data (posTr w.sizes v) with
  | none => rfl
  | some blk => simp [inRange_rot hs hv]

/-- Fields not touched by voxel writes. -/
structure Same (w w' : WDA) : Prop where
  sizes : w'.sizes = w.sizes
  minValid : w'.minValid = w.minValid
  adjust : w'.adjust = w.adjust

theorem Same.refl (w : WDA) : Same w w := ⟨rfl, rfl, rfl⟩
theorem Same.trans {a b c : WDA} (h : Same a b) (g : Same b c) : Same a c :=
  ⟨g.sizes.trans h.sizes, g.minValid.trans h.minValid, g.adjust.trans h.adjust⟩

theorem ensureData_spec {w : WDA} {v : Vox} (hp : posTr w.sizes v < allocTr w.sizes) :
    ∃ w', ensureData w v = some w' ∧ Same w w' ∧ w'.maxEntry = w.maxEntry ∧ w'.filled = w.filled ∧
      (∃ blk, w'.data (posTr w.sizes v) = some blk) ∧ ∀ u, val w' u = val w u := by
  unfold ensureData
  rw [if_pos hp]
  cases hd : w.data (posTr w.sizes v) with
  | some blk => exact ⟨w, rfl, Same.refl w, rfl, rfl, ⟨blk, hd⟩, fun _ => rfl⟩
  | none =>
    refine ⟨_, rfl, ⟨rfl, rfl, rfl⟩, rfl, rfl, ⟨fun _ => 0, by simp [upd]⟩, ?_⟩
    intro u
    unfold val upd
    simp only
    by_cases hu : posTr w.sizes u = posTr w.sizes v
    · simp [hu, hd]
    · simp [hu]

theorem poke_spec {w : WDA} {v : Vox} {x : Nat} (hs : Fits w.sizes) (hv : InRange w.sizes v)
    (hb : ∃ blk, w.data (posTr w.sizes v) = some blk) :
    ∃ w', poke w v x = some w' ∧ Same w w' ∧ w'.maxEntry = w.maxEntry ∧ w'.filled = w.filled ∧
      (∀ p, (∃ blk, w.data p = some blk) ↔ ∃ blk, w'.data p = some blk) ∧
      ∀ u, InRange w.sizes u → val w' u = if u = v then x else val w u := by
  obtain ⟨blk, hb⟩ := hb
  unfold poke
  rw [if_pos (inRange_tr hs hv), hb]
  simp only [if_pos (inRange_rot hs hv)]
  refine ⟨_, rfl, ⟨rfl, rfl, rfl⟩, rfl, rfl, ?_, ?_⟩
  · intro p
    by_cases hp : p = posTr w.sizes v
    · subst hp; simp [upd, hb]
    · simp [upd, hp]
  · intro u hu
    unfold val upd
    simp only
    by_cases h1 : posTr w.sizes u = posTr w.sizes v
    · by_cases h2 : posRot w.sizes u = posRot w.sizes v
      · have := vox_eq hs hu hv h1 h2
        subst this; simp
      · have : u ≠ v := fun e => h2 (by rw [e])
        simp [h1, h2, this, hb]
    · have : u ≠ v := fun e => h1 (by rw [e])
      simp [h1, this]

theorem setDatum_spec {w : WDA} {v : Vox} {x : Nat} (hs : Fits w.sizes) (hv : InRange w.sizes v) :
    ∃ w', setDatum w v x = some w' ∧ Same w w' ∧ w'.maxEntry = max w.maxEntry x ∧
      w'.filled = w.filled + (if val w v = 0 then 1 else 0) ∧
      ∀ u, InRange w.sizes u → val w' u = if u = v then x else val w u := by
  obtain ⟨w1, e1, s1, m1, f1, b1, v1⟩ := ensureData_spec (inRange_tr hs hv)
  have hs1 : Fits w1.sizes := by rw [s1.sizes]; exact hs
  have hv1 : InRange w1.sizes v := by rw [s1.sizes]; exact hv
  have hg := get_eq hs1 hv1
  rw [v1] at hg
  let w2 : WDA := if val w v = 0 then { w1 with filled := w1.filled + 1 } else w1
  have hw2 : w2.sizes = w1.sizes ∧ w2.data = w1.data ∧ w2.minValid = w1.minValid ∧
      w2.adjust = w1.adjust ∧ w2.maxEntry = w1.maxEntry ∧
      w2.filled = w1.filled + (if val w v = 0 then 1 else 0) := by
    by_cases h : val w v = 0 <;> simp [w2, h]
  obtain ⟨q1, q2, q3, q4, q5, q6⟩ := hw2
  have hval2 : ∀ u, val w2 u = val w u := by
    intro u; rw [← v1 u]; unfold val; rw [q1, q2]
  obtain ⟨w3, e3, s3, m3, f3, _, v3⟩ := poke_spec (w := w2) (v := v) (x := x)
    (by rw [q1]; exact hs1) (by rw [q1]; exact hv1) (by rw [q1, q2, s1.sizes]; exact b1)
  have hrun : setDatum w v x =
      some (if x ≥ w3.maxEntry then { w3 with maxEntry := x } else w3) := by
    unfold setDatum
    rw [e1]
    show (get w1 v).bind _ = _
    rw [hg]
    show (poke w2 v x).bind _ = _
    rw [e3]; rfl
  refine ⟨_, hrun, ?_, ?_, ?_, ?_⟩
  · have : Same w w3 := ⟨by rw [s3.sizes, q1, s1.sizes], by rw [s3.minValid, q3, s1.minValid],
      by rw [s3.adjust, q4, s1.adjust]⟩
    split
    · exact ⟨this.sizes, this.minValid, this.adjust⟩
    · exact this
  · have : w3.maxEntry = w.maxEntry := by rw [m3, q5, m1]
    split <;> (try simp only) <;> omega
  · have : w3.filled = w.filled + (if val w v = 0 then 1 else 0) := by rw [f3, q6, f1]
    split <;> simpa using this
  · intro u hu
    have := v3 u (by rw [q1, s1.sizes]; exact hu)
    rw [hval2] at this
    rw [← this]
    split <;> rfl

/-! ## Loops -/

theorem mem_voxels {s v : Vox} : v ∈ voxels s ↔ InRange s v := by
  unfold voxels InRange
  simp only [List.mem_flatMap, List.mem_map, List.mem_range]
  constructor
  · rintro ⟨a, ha, b, hb, c, hc, d, hd, e, he, f, hf, rfl⟩
    exact ⟨ha, hb, hc, hd, he, hf⟩
  · rintro ⟨ha, hb, hc, hd, he, hf⟩
    exact ⟨_, ha, _, hb, _, hc, _, hd, _, he, _, hf, rfl⟩

theorem nodup_flatMap_range {β : Type} (n : Nat) (f : Nat → List β) (g : β → Nat)
    (h1 : ∀ i, (f i).Nodup) (h2 : ∀ i, ∀ x ∈ f i, g x = i) :
    ((List.range n).flatMap f).Nodup := by
  rw [List.nodup_flatMap]
  refine ⟨fun i _ => h1 i, ?_⟩
  refine List.Pairwise.imp ?_ (List.nodup_range (n := n))
  intro i j hij x hi hj
  exact hij ((h2 i x hi).symm.trans (h2 j x hj))

theorem nodup_voxels (s : Vox) : (voxels s).Nodup := by
  unfold voxels
  refine nodup_flatMap_range _ _ (fun v => v.a) (fun a => ?_) ?_
  · refine nodup_flatMap_range _ _ (fun v => v.b) (fun b => ?_) ?_
    · refine nodup_flatMap_range _ _ (fun v => v.c) (fun c => ?_) ?_
      · refine nodup_flatMap_range _ _ (fun v => v.d) (fun d => ?_) ?_
        · refine nodup_flatMap_range _ _ (fun v => v.e) (fun e => ?_) ?_
          · exact List.Nodup.map (fun x y h => by simpa using h) List.nodup_range
          · intro i x hx; simp at hx; obtain ⟨_, _, rfl⟩ := hx; rfl
        · intro i x hx; simp at hx; obtain ⟨_, _, _, _, rfl⟩ := hx; rfl
      · intro i x hx; simp at hx; obtain ⟨_, _, _, _, _, _, rfl⟩ := hx; rfl
    · intro i x hx; simp at hx; obtain ⟨_, _, _, _, _, _, _, _, rfl⟩ := hx; rfl
  · intro i x hx; simp at hx; obtain ⟨_, _, _, _, _, _, _, _, _, _, rfl⟩ := hx; rfl

/-- A pointwise loop body: applies `f` to the visited voxel and leaves everything else alone. -/
structure Pointwise (sz : Vox) (m : Nat) (f : Nat → Nat) (body : WDA → Vox → Option WDA) : Prop where
  ok : ∀ w v, w.sizes = sz → w.minValid = m → InRange sz v →
    ∃ w', body w v = some w' ∧ Same w w' ∧ w'.maxEntry = w.maxEntry ∧ w'.filled = w.filled ∧
      ∀ u, InRange sz u → val w' u = if u = v then f (val w u) else val w u

theorem loop_pointwise {sz : Vox} {m : Nat} {f : Nat → Nat} {body : WDA → Vox → Option WDA}
    (hb : Pointwise sz m f body) (l : List Vox) (hn : l.Nodup) (hl : ∀ v ∈ l, InRange sz v)
    (w : WDA) (hw : w.sizes = sz) (hm : w.minValid = m) :
    ∃ w', loop body l w = some w' ∧ Same w w' ∧ w'.maxEntry = w.maxEntry ∧ w'.filled = w.filled ∧
      ∀ u, InRange sz u → val w' u = if u ∈ l then f (val w u) else val w u := by
  induction l generalizing w with
  | nil => exact ⟨w, rfl, Same.refl w, rfl, rfl, fun u _ => by simp⟩
  | cons v l ih =>
    obtain ⟨w1, e1, s1, m1, f1, v1⟩ := hb.ok w v hw hm (hl v (List.mem_cons_self ..))
    obtain ⟨w2, e2, s2, m2, f2, v2⟩ := ih (List.nodup_cons.mp hn).2
      (fun u hu => hl u (List.mem_cons_of_mem _ hu)) w1 (by rw [s1.sizes, hw]) (by rw [s1.minValid, hm])
    refine ⟨w2, ?_, s1.trans s2, by rw [m2, m1], by rw [f2, f1], ?_⟩
    · simp [loop, e1, e2]
    · intro u hu
      rw [v2 u hu, v1 u hu]
      have hnv := (List.nodup_cons.mp hn).1
      by_cases huv : u = v
      · subst huv; simp [hnv]
      · simp [huv]

theorem bisect_pointwise {sz : Vox} (hs : Fits sz) (m : Nat) :
    Pointwise sz m (halve m) bisectVoxel where
  ok := by
    intro w v hw hm hv
    subst hw hm
    unfold bisectVoxel
    rw [if_pos (inRange_tr hs hv)]
    cases hd : w.data (posTr w.sizes v) with
    | none =>
      refine ⟨w, rfl, Same.refl w, rfl, rfl, ?_⟩
      intro u hu
      split
      · rename_i h; subst h
        have : val w u = 0 := by unfold val; rw [hd]
        simp [this, halve]
      · rfl
    | some blk =>
      simp only [get_eq hs hv, Option.bind_eq_bind, Option.bind_some]
      by_cases hgt : val w v > w.minValid
      · rw [if_pos hgt]
        obtain ⟨w1, e1, s1, m1, f1, b1, v1⟩ := poke_spec (x := val w v / 2) hs hv ⟨blk, hd⟩
        rw [e1]
        simp only [Option.bind_some]
        by_cases hlt : val w v / 2 < w1.minValid
        · rw [if_pos hlt]
          obtain ⟨w2, e2, s2, m2, f2, _, v2⟩ := poke_spec (w := w1) (v := v) (x := w1.minValid)
            (by rw [s1.sizes]; exact hs) (by rw [s1.sizes]; exact hv)
            (by rw [s1.sizes]; exact (b1 _).mp ⟨blk, hd⟩)
          refine ⟨w2, e2, s1.trans s2, by rw [m2, m1], by rw [f2, f1], ?_⟩
          intro u hu
          rw [v2 u (by rw [s1.sizes]; exact hu), v1 u hu]
          rw [s1.minValid] at hlt ⊢
          by_cases huv : u = v
          · subst huv; simp only [if_true, halve, if_pos hgt]; omega
          · simp [huv]
        · rw [if_neg hlt]
          refine ⟨w1, rfl, s1, m1, f1, ?_⟩
          intro u hu
          rw [v1 u hu]
          rw [s1.minValid] at hlt
          by_cases huv : u = v
          · subst huv; simp only [if_true, halve, if_pos hgt]; omega
          · simp [huv]
      · rw [if_neg hgt]
        refine ⟨w, rfl, Same.refl w, rfl, rfl, ?_⟩
        intro u hu
        by_cases huv : u = v
        · subst huv; simp [halve, hgt]
        · simp [huv]

theorem binarize_pointwise {sz : Vox} (hs : Fits sz) (m : Nat) :
    Pointwise sz m (fun x => min x m) binarizeVoxel where
  ok := by
    intro w v hw hm hv
    subst hw hm
    unfold binarizeVoxel
    rw [if_pos (inRange_tr hs hv)]
    cases hd : w.data (posTr w.sizes v) with
    | none =>
      refine ⟨w, rfl, Same.refl w, rfl, rfl, ?_⟩
      intro u hu
      split
      · rename_i h; subst h
        have : val w u = 0 := by unfold val; rw [hd]
        simp [this]
      · rfl
    | some blk =>
      simp only [get_eq hs hv, Option.bind_eq_bind, Option.bind_some]
      by_cases hgt : val w v > w.minValid
      · rw [if_pos hgt]
        obtain ⟨w1, e1, s1, m1, f1, b1, v1⟩ := poke_spec (x := w.minValid) hs hv ⟨blk, hd⟩
        refine ⟨w1, e1, s1, m1, f1, ?_⟩
        intro u hu
        rw [v1 u hu]
        by_cases huv : u = v
        · subst huv; simp only [if_true]; omega
        · simp [huv]
      · rw [if_neg hgt]
        refine ⟨w, rfl, Same.refl w, rfl, rfl, ?_⟩
        intro u hu
        by_cases huv : u = v
        · subst huv; simp only [if_true]; omega
        · simp [huv]

theorem bisectData_spec {w : WDA} (hs : Fits w.sizes) :
    ∃ w', bisectData w = some w' ∧ Same w w' ∧ w'.maxEntry = halve w.minValid w.maxEntry ∧
      w'.filled = w.filled ∧ ∀ u, InRange w.sizes u → val w' u = halve w.minValid (val w u) := by
  obtain ⟨w1, e1, s1, m1, f1, v1⟩ := loop_pointwise (bisect_pointwise hs w.minValid)
    (voxels w.sizes) (nodup_voxels _) (fun v hv => mem_voxels.mp hv) w rfl rfl
  unfold bisectData
  rw [e1]
  refine ⟨_, rfl, ?_, ?_, ?_, ?_⟩
  · split
    · exact ⟨s1.sizes, s1.minValid, s1.adjust⟩
    · exact s1
  · rw [s1.minValid, m1]
    unfold halve
    split
    · simp only; split <;> omega
    · exact m1
  · split
    · exact f1
    · exact f1
  · intro u hu
    have := v1 u hu
    rw [if_pos (mem_voxels.mpr hu)] at this
    rw [← this]
    split <;> rfl

theorem binarize_spec {w : WDA} (hs : Fits w.sizes) :
    ∃ w', binarize w = some w' ∧ Same w w' ∧ w'.maxEntry = w.minValid ∧
      w'.filled = w.filled ∧ ∀ u, InRange w.sizes u → val w' u = min (val w u) w.minValid := by
  obtain ⟨w1, e1, s1, m1, f1, v1⟩ := loop_pointwise (binarize_pointwise hs w.minValid)
    (voxels w.sizes) (nodup_voxels _) (fun v hv => mem_voxels.mp hv) w rfl rfl
  unfold binarize
  rw [e1]
  refine ⟨_, rfl, ⟨s1.sizes, s1.minValid, s1.adjust⟩, s1.minValid, f1, ?_⟩
  intro u hu
  have := v1 u hu
  rw [if_pos (mem_voxels.mpr hu)] at this
  rw [← this]; rfl

theorem increaseDatum_spec {w : WDA} {v : Vox} (hs : Fits w.sizes) (hv : InRange w.sizes v) :
    ∃ w', increaseDatum w v = some w' ∧ Same w w' ∧
      w'.filled = w.filled + (if val w v = 0 then 1 else 0) ∧
      (val w v < 255 → w'.maxEntry = max w.maxEntry (val w v + 1) ∧
        ∀ u, InRange w.sizes u → val w' u = if u = v then val w v + 1 else val w u) ∧
      (¬ val w v < 255 → w.adjust = true → w'.maxEntry = halve w.minValid w.maxEntry ∧
        ∀ u, InRange w.sizes u → val w' u = halve w.minValid (val w u)) ∧
      (¬ val w v < 255 → w.adjust = false → w'.maxEntry = w.maxEntry ∧
        ∀ u, InRange w.sizes u → val w' u = val w u) := by
  obtain ⟨w1, e1, s1, m1, f1, b1, v1⟩ := ensureData_spec (inRange_tr hs hv)
  have hs1 : Fits w1.sizes := by rw [s1.sizes]; exact hs
  have hv1 : InRange w1.sizes v := by rw [s1.sizes]; exact hv
  have hg := get_eq hs1 hv1
  rw [v1] at hg
  let w2 : WDA := if val w v = 0 then { w1 with filled := w1.filled + 1 } else w1
  have hw2 : w2.sizes = w1.sizes ∧ w2.data = w1.data ∧ w2.minValid = w1.minValid ∧
      w2.adjust = w1.adjust ∧ w2.maxEntry = w1.maxEntry ∧
      w2.filled = w1.filled + (if val w v = 0 then 1 else 0) := by
    by_cases h : val w v = 0 <;> simp [w2, h]
  obtain ⟨q1, q2, q3, q4, q5, q6⟩ := hw2
  have hval2 : ∀ u, val w2 u = val w u := by
    intro u; rw [← v1 u]; unfold val; rw [q1, q2]
  have S2 : Same w w2 := ⟨by rw [q1, s1.sizes], by rw [q3, s1.minValid], by rw [q4, s1.adjust]⟩
  have hstart : increaseDatum w v =
      (if val w v < 255 then
        (poke w2 v (val w v + 1)).bind fun w => some (if val w2 v ≥ w.maxEntry then { w with maxEntry := val w2 v + 1 } else w)
      else if w2.adjust then bisectData w2 else some w2) := by
    unfold increaseDatum
    rw [e1]
    show (get w1 v).bind _ = _
    rw [hg, hval2]
    rfl
  by_cases hlt : val w v < 255
  · rw [if_pos hlt] at hstart
    obtain ⟨w3, e3, s3, m3, f3, _, v3⟩ := poke_spec (w := w2) (v := v) (x := val w v + 1)
      (by rw [q1]; exact hs1) (by rw [q1]; exact hv1) (by rw [q1, q2, s1.sizes]; exact b1)
    rw [e3] at hstart
    refine ⟨_, hstart, ?_, ?_, fun _ => ⟨?_, ?_⟩, fun h => absurd hlt h, fun h => absurd hlt h⟩
    · have := S2.trans s3
      split
      · exact ⟨this.sizes, this.minValid, this.adjust⟩
      · exact this
    · have : w3.filled = w.filled + (if val w v = 0 then 1 else 0) := by rw [f3, q6, f1]
      split <;> simpa using this
    · have : w3.maxEntry = w.maxEntry := by rw [m3, q5, m1]
      rw [hval2]
      split <;> (try simp only) <;> omega
    · intro u hu
      have := v3 u (by rw [q1, s1.sizes]; exact hu)
      rw [hval2] at this
      rw [← this]
      split <;> rfl
  · rw [if_neg hlt] at hstart
    by_cases ha : w2.adjust
    · rw [if_pos ha] at hstart
      obtain ⟨w3, e3, s3, m3, f3, v3⟩ := bisectData_spec (w := w2) (by rw [q1]; exact hs1)
      rw [e3] at hstart
      refine ⟨w3, hstart, S2.trans s3, by rw [f3, q6, f1], fun h => absurd h hlt,
        fun _ _ => ⟨?_, ?_⟩, fun _ h => ?_⟩
      · rw [m3, S2.minValid, q5, m1]
      · intro u hu
        rw [v3 u (by rw [S2.sizes]; exact hu), S2.minValid, hval2]
      · rw [S2.adjust, h] at ha; simp at ha
    · rw [if_neg ha] at hstart
      refine ⟨w2, hstart, S2, by rw [q6, f1], fun h => absurd h hlt, fun _ h => ?_,
        fun _ _ => ⟨by rw [q5, m1], fun u _ => hval2 u⟩⟩
      rw [S2.adjust, h] at ha; simp at ha

/-! ## Neighbourhood writes -/

theorem i32_small {n : Int} (h1 : -2 ^ 31 ≤ n) (h2 : n < 2 ^ 31) : i32 n = n := by
  unfold i32; omega

theorem mem_irange {lo hi i : Int} : i ∈ irange lo hi ↔ lo ≤ i ∧ i ≤ hi := by
  unfold irange
  simp only [List.mem_map, List.mem_range]
  constructor
  · rintro ⟨k, hk, rfl⟩; omega
  · rintro ⟨h1, h2⟩; exact ⟨(i - lo).toNat, by omega, by omega⟩

theorem mem_axis {x n s y : Nat} (hx : x < s) (hs : s + n < 2 ^ 31) :
    (∃ i ∈ irange (minX x n) (maxX x n s), i.toNat = y) ↔ near n x y ∧ y < s := by
  have e1 : minX x n = if (x : Int) - n < 0 then 0 else (x : Int) - n := by
    unfold minX; rw [i32_small (by omega) (by omega)]
  have e2 : maxX x n s = if (x : Int) + n ≥ s then (s : Int) - 1 else (x : Int) + n := by
    unfold maxX; rw [i32_small (by omega) (by omega), i32_small (by omega) (by omega)]
  unfold near
  constructor
  · rintro ⟨i, hi, rfl⟩
    rw [mem_irange, e1, e2] at hi
    split at hi <;> split at hi <;> omega
  · rintro ⟨⟨h1, h2⟩, h3⟩
    refine ⟨(y : Int), ?_, by omega⟩
    rw [mem_irange, e1, e2]
    split <;> split <;> omega

theorem mem_neighbours {s v u : Vox} {n : Nat} (hv : InRange s v)
    (hn : s.a + n < 2 ^ 31 ∧ s.b + n < 2 ^ 31 ∧ s.c + n < 2 ^ 31 ∧
      s.d + n < 2 ^ 31 ∧ s.e + n < 2 ^ 31 ∧ s.f + n < 2 ^ 31) :
    u ∈ neighbours s v n ↔ InCube n v u ∧ InRange s u := by
  obtain ⟨h1, h2, h3, h4, h5, h6⟩ := hv
  obtain ⟨n1, n2, n3, n4, n5, n6⟩ := hn
  have a1 := mem_axis (y := u.a) h1 n1
  have a2 := mem_axis (y := u.b) h2 n2
  have a3 := mem_axis (y := u.c) h3 n3
  have a4 := mem_axis (y := u.d) h4 n4
  have a5 := mem_axis (y := u.e) h5 n5
  have a6 := mem_axis (y := u.f) h6 n6
  unfold neighbours InCube InRange
  simp only [List.mem_flatMap, List.mem_map]
  constructor
  · rintro ⟨a, ha, b, hb, c, hc, d, hd, e, he, f, hf, rfl⟩
    have b1 := a1.mp ⟨a, ha, rfl⟩
    have b2 := a2.mp ⟨b, hb, rfl⟩
    have b3 := a3.mp ⟨c, hc, rfl⟩
    have b4 := a4.mp ⟨d, hd, rfl⟩
    have b5 := a5.mp ⟨e, he, rfl⟩
    have b6 := a6.mp ⟨f, hf, rfl⟩
    exact ⟨⟨b1.1, b2.1, b3.1, b4.1, b5.1, b6.1⟩, b1.2, b2.2, b3.2, b4.2, b5.2, b6.2⟩
  · rintro ⟨⟨c1, c2, c3, c4, c5, c6⟩, r1, r2, r3, r4, r5, r6⟩
    obtain ⟨a, ha, ea⟩ := a1.mpr ⟨c1, r1⟩
    obtain ⟨b, hb, eb⟩ := a2.mpr ⟨c2, r2⟩
    obtain ⟨c, hc, ec⟩ := a3.mpr ⟨c3, r3⟩
    obtain ⟨d, hd, ed⟩ := a4.mpr ⟨c4, r4⟩
    obtain ⟨e, he, ee⟩ := a5.mpr ⟨c5, r5⟩
    obtain ⟨f, hf, ef⟩ := a6.mpr ⟨c6, r6⟩
    exact ⟨a, ha, b, hb, c, hc, d, hd, e, he, f, hf, by cases u; simp_all⟩

theorem neighbourLoop_spec {sz : Vox} (hs : Fits sz) (x : Nat) (l : List Vox)
    (hl : ∀ v ∈ l, InRange sz v) (w : WDA) (hw : w.sizes = sz) :
    ∃ w', loop (neighbourStep x) l w = some w' ∧ Same w w' ∧
      w.maxEntry ≤ w'.maxEntry ∧ w'.maxEntry ≤ max w.maxEntry x ∧
      (w'.maxEntry = w.maxEntry ∨ w'.maxEntry = x) ∧
      ∀ u, InRange sz u → val w' u = if u ∈ l then max (val w u) x else val w u := by
  induction l generalizing w with
  | nil => exact ⟨w, rfl, Same.refl w, by omega, by omega, Or.inl rfl, fun u _ => by simp⟩
  | cons v l ih =>
    have hv := hl v (List.mem_cons_self ..)
    subst hw
    have hstep : ∃ w1, neighbourStep x w v = some w1 ∧ Same w w1 ∧
        w.maxEntry ≤ w1.maxEntry ∧ w1.maxEntry ≤ max w.maxEntry x ∧
        (w1.maxEntry = w.maxEntry ∨ w1.maxEntry = x) ∧
        ∀ u, InRange w.sizes u → val w1 u = if u = v then max (val w u) x else val w u := by
      unfold neighbourStep
      rw [get_eq hs hv]
      simp only [Option.bind_eq_bind, Option.bind_some]
      by_cases hlt : val w v < x
      · rw [if_pos hlt]
        obtain ⟨w1, e1, s1, m1, _, v1⟩ := setDatum_spec (x := x) hs hv
        refine ⟨w1, e1, s1, by omega, by omega, by omega, ?_⟩
        intro u hu
        rw [v1 u hu]
        by_cases huv : u = v
        · subst huv; simp only [if_true]; omega
        · simp [huv]
      · rw [if_neg hlt]
        refine ⟨w, rfl, Same.refl w, by omega, by omega, Or.inl rfl, ?_⟩
        intro u hu
        by_cases huv : u = v
        · subst huv; simp only [if_true]; omega
        · simp [huv]
    obtain ⟨w1, e1, s1, m1, m1', m1'', v1⟩ := hstep
    obtain ⟨w2, e2, s2, m2, m2', m2'', v2⟩ := ih (fun u hu => hl u (List.mem_cons_of_mem _ hu)) w1 s1.sizes
    refine ⟨w2, by simp [loop, e1, e2], s1.trans s2, by omega, by omega, by omega, ?_⟩
    intro u hu
    rw [v2 u hu, v1 u hu]
    by_cases huv : u = v
    · subst huv
      simp only [if_true, List.mem_cons, true_or]
      split <;> omega
    · simp [huv]

theorem setDatumCheckNeighbors_spec {w : WDA} {v : Vox} {x n : Nat} (hs : Fits w.sizes)
    (hv : InRange w.sizes v)
    (hn : w.sizes.a + n < 2 ^ 31 ∧ w.sizes.b + n < 2 ^ 31 ∧ w.sizes.c + n < 2 ^ 31 ∧
      w.sizes.d + n < 2 ^ 31 ∧ w.sizes.e + n < 2 ^ 31 ∧ w.sizes.f + n < 2 ^ 31) :
    ∃ w', setDatumCheckNeighbors w v x n = some w' ∧ Same w w' ∧
      w'.maxEntry = max w.maxEntry x ∧
      ∀ u, InRange w.sizes u → val w' u =
        if u = v then x else if InCube n v u then max (val w u) x else val w u := by
  obtain ⟨w1, e1, s1, m1, _, v1⟩ := setDatum_spec (x := x) hs hv
  unfold setDatumCheckNeighbors
  rw [e1]
  simp only [Option.bind_eq_bind, Option.bind_some]
  by_cases h0 : n = 0
  · subst h0
    refine ⟨w1, by simp, s1, m1, ?_⟩
    intro u hu
    rw [v1 u hu]
    by_cases huv : u = v
    · simp [huv]
    · have : ¬ InCube 0 v u := by
        unfold InCube near
        intro h; apply huv
        cases u; cases v; simp at h ⊢; omega
      simp [huv, this]
  · rw [if_neg h0]
    have hmem : ∀ u, u ∈ neighbours w1.sizes v n ↔ InCube n v u ∧ InRange w.sizes u := by
      intro u; rw [s1.sizes]; exact mem_neighbours hv hn
    obtain ⟨w2, e2, s2, m2, m2', m2'', v2⟩ := neighbourLoop_spec hs x (neighbours w1.sizes v n)
      (fun u hu => ((hmem u).mp hu).2) w1 s1.sizes
    refine ⟨w2, e2, s1.trans s2, by omega, ?_⟩
    intro u hu
    rw [v2 u hu, v1 u hu]
    by_cases huv : u = v
    · subst huv
      simp
    · simp [huv, hmem, hu]

/-! ## clear, block access -/

theorem visited_pos {s v : Vox} (hv : InRange s v) : visited s (posTr s v) = true := by
  unfold visited
  rw [List.any_eq_true]
  refine ⟨⟨v.a, v.b, v.c, 0, 0, 0⟩, ?_, by simp [posTr]⟩
  rw [mem_voxels]
  unfold InRange at hv ⊢
  simp [hv.1, hv.2.1, hv.2.2.1]

theorem clear_val {w : WDA} {v : Vox} (hv : InRange w.sizes v) : val (clear w) v = 0 := by
  unfold val clear
  simp [visited_pos hv]

theorem setDataRot_spec {w : WDA} {src : Nat → Nat} {x y z : Nat} (hs : Fits w.sizes)
    (hx : x < w.sizes.a) (hy : y < w.sizes.b) (hz : z < w.sizes.c) :
    ∃ w', setDataRot w src x y z = some w' ∧ Same w w' ∧ w'.maxEntry = w.maxEntry ∧
      w'.filled = w.filled ∧
      ∀ u, InRange w.sizes u → val w' u =
        if u.a = x ∧ u.b = y ∧ u.c = z then
          src ((u.d * w.sizes.e + u.e) * w.sizes.f + u.f) else val w u := by
  have hp := (posTr_eq (v := ⟨x, y, z, 0, 0, 0⟩) hs hx hy hz)
  obtain ⟨w1, e1, s1, m1, f1, b1, v1⟩ := ensureData_spec hp.2
  unfold setDataRot
  rw [e1]
  refine ⟨_, rfl, ⟨s1.sizes, s1.minValid, s1.adjust⟩, m1, f1, ?_⟩
  intro u hu
  have hpu := posTr_eq hs hu.1 hu.2.1 hu.2.2.1
  by_cases h : u.a = x ∧ u.b = y ∧ u.c = z
  · rw [if_pos h]
    have e : posTr w.sizes u = posTr w.sizes ⟨x, y, z, 0, 0, 0⟩ := by
      rw [hpu.1, hp.1, h.1, h.2.1, h.2.2]
    unfold val upd
    simp only [s1.sizes, e, if_true]
    rw [(posRot_eq hs hu.2.2.2.1 hu.2.2.2.2.1 hu.2.2.2.2.2).1]
  · rw [if_neg h, ← v1 u]
    have e : posTr w.sizes u ≠ posTr w.sizes ⟨x, y, z, 0, 0, 0⟩ := by
      intro e
      rw [hpu.1, hp.1] at e
      exact h (radix_inj hu.2.1 hu.2.2.1 hy hz e)
    unfold val upd
    simp only [s1.sizes, if_neg e]

/-! ## Refinement -/

/-- Concrete state `w` represents abstract state `s`. -/
structure Refines (sz : Vox) (adj : Bool) (w : WDA) (s : S) : Prop where
  sizes : w.sizes = sz
  adjust : w.adjust = adj
  minValid : w.minValid = s.minValid
  val : ∀ u, InRange sz u → val w u = s.val u

theorem clone_val {w : WDA} {u : Vox} (hu : InRange w.sizes u) : val (clone w) u = val w u := by
  unfold val clone; simp [visited_pos hu]

theorem step_refines {sz : Vox} {adj : Bool} (hs : Fits sz) {w : WDA} {s : S} (op : Op)
    (hr : Refines sz adj w s) (ha : Admissible sz op) :
    ∃ w', step w op = some w' ∧ Refines sz adj w' (Spec.step sz adj s op) := by
  obtain ⟨h1, h2, h3, h4⟩ := hr
  subst h1 h2
  cases op with
  | set v x =>
    obtain ⟨w', e, sm, _, _, hv⟩ := setDatum_spec (x := x) hs ha.1
    refine ⟨w', e, sm.sizes, sm.adjust, by rw [sm.minValid, h3]; rfl, ?_⟩
    intro u hu
    simp only [Spec.step, put]
    rw [hv u hu, h4 u hu]
  | increase v =>
    obtain ⟨w', e, sm, _, c1, c2, c3⟩ := increaseDatum_spec hs ha
    have hval := h4 v ha
    refine ⟨w', e, sm.sizes, sm.adjust, ?_, ?_⟩
    · simp only [Spec.step]; split
      · rw [sm.minValid, h3]
      · split <;> rw [sm.minValid, h3]
    · intro u hu
      simp only [Spec.step]
      by_cases hlt : s.val v < 255
      · rw [if_pos hlt]
        obtain ⟨_, hv⟩ := c1 (by omega)
        rw [hv u hu, hval, h4 u hu]; rfl
      · rw [if_neg hlt]
        by_cases hadj : w.adjust
        · rw [if_pos hadj]
          obtain ⟨_, hv⟩ := c2 (by omega) hadj
          rw [hv u hu, h3, h4 u hu]
        · rw [if_neg hadj]
          obtain ⟨_, hv⟩ := c3 (by omega) (by simpa using hadj)
          rw [hv u hu, h4 u hu]
  | setNeighbours v x n =>
    obtain ⟨w', e, sm, _, hv⟩ := setDatumCheckNeighbors_spec (x := x) hs ha.1 ha.2.2
    refine ⟨w', e, sm.sizes, sm.adjust, by rw [sm.minValid, h3]; rfl, ?_⟩
    intro u hu
    simp only [Spec.step]
    rw [hv u hu, h4 u hu]
  | bisect =>
    obtain ⟨w', e, sm, _, _, hv⟩ := bisectData_spec hs
    refine ⟨w', e, sm.sizes, sm.adjust, by rw [sm.minValid, h3]; rfl, ?_⟩
    intro u hu
    simp only [Spec.step]
    rw [hv u hu, h4 u hu, h3]
  | binarize =>
    obtain ⟨w', e, sm, _, _, hv⟩ := binarize_spec hs
    refine ⟨w', e, sm.sizes, sm.adjust, by rw [sm.minValid, h3]; rfl, ?_⟩
    intro u hu
    simp only [Spec.step]
    rw [hv u hu, h4 u hu, h3]
  | clear =>
    refine ⟨clear w, rfl, rfl, rfl, h3, ?_⟩
    intro u hu
    exact clear_val hu
  | setMinValid m => exact ⟨_, rfl, rfl, rfl, rfl, h4⟩
  | setDataRot src x y z =>
    obtain ⟨w', e, sm, _, _, hv⟩ := setDataRot_spec (src := src) hs ha.1 ha.2.1 ha.2.2.1
    refine ⟨w', e, sm.sizes, sm.adjust, by rw [sm.minValid, h3]; rfl, ?_⟩
    intro u hu
    simp only [Spec.step]
    rw [hv u hu, h4 u hu]
  | getDataRot x y z =>
    have hp := (posTr_eq (v := ⟨x, y, z, 0, 0, 0⟩) hs ha.1 ha.2.1 ha.2.2).2
    obtain ⟨w', e, sm, _, _, _, hv⟩ := ensureData_spec hp
    refine ⟨w', e, sm.sizes, sm.adjust, by rw [sm.minValid, h3]; rfl, ?_⟩
    intro u hu
    rw [hv u, h4 u hu]; rfl
  | goOnWithClone =>
    refine ⟨clone w, rfl, rfl, rfl, h3, ?_⟩
    intro u hu
    rw [clone_val hu]; exact h4 u hu

theorem run_refines {sz : Vox} {adj : Bool} (hs : Fits sz) (ops : List Op) {w : WDA} {s : S}
    (hr : Refines sz adj w s) (ha : ∀ op ∈ ops, Admissible sz op) :
    ∃ w', run w ops = some w' ∧ Refines sz adj w' (Spec.run sz adj s ops) := by
  induction ops generalizing w s with
  | nil => exact ⟨w, rfl, hr⟩
  | cons op ops ih =>
    obtain ⟨w1, e1, r1⟩ := step_refines hs op hr (ha op (List.mem_cons_self ..))
    obtain ⟨w2, e2, r2⟩ := ih r1 (fun o ho => ha o (List.mem_cons_of_mem _ ho))
    exact ⟨w2, by simp [run, e1, e2], r2⟩

theorem init_refines (sz : Vox) (adj : Bool) : Refines sz adj (new sz adj) Spec.init :=
  ⟨rfl, rfl, rfl, fun _ _ => rfl⟩

end Simox.Workspace
