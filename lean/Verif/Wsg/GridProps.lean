import Verif.Wsg.Lemmas
import Mathlib.Tactic.NormNum

/-!
# C118, C119: the grid of robot positions
-/

namespace Simox.Wsg

variable {G : Type}

theorem toInt_of_nonneg {x : ℝ} (h : 0 ≤ x) : toInt x = ⌊x⌋ := by rw [toInt, if_pos h]

/-- The constructor: a new grid is an empty sheet over the given area, divided into cells that are not larger than
the given size; bounds in the wrong order are refused. -/
theorem C118_new (minX maxX minY maxY d : ℝ) :
    ((minX ≥ maxX ∨ minY ≥ maxY) → (Grid.new minX maxX minY maxY d : Option (Grid G)) = none) ∧
    (minX < maxX → minY < maxY → 0 < d → ∃ (f : Format) (g : Grid G), Grid.new minX maxX minY maxY d = some g ∧
      Shows f g ⟨minX, minY, fun _ _ => []⟩ ∧ f.extendX = maxX - minX ∧ f.extendY = maxY - minY ∧ g.discretizeSize = d ∧
      f.sizeX = ⌊(maxX - minX) / d⌋ + 1 ∧ f.sizeY = ⌊(maxY - minY) / d⌋ + 1 ∧
      f.extendX / f.sizeX < d ∧ f.extendY / f.sizeY < d) := by
  constructor
  · intro h
    unfold Grid.new
    rw [if_pos h]
  · intro h1 h2 hd
    have key : ∀ a b : ℝ, a < b → 0 < toInt ((b - a) / d) + 1 ∧ toInt ((b - a) / d) = ⌊(b - a) / d⌋ ∧
        (b - a) / ((⌊(b - a) / d⌋ + 1 : ℤ) : ℝ) < d := by
      intro a b hab
      have hp : 0 < (b - a) / d := div_pos (by linarith) hd
      have e := toInt_of_nonneg hp.le
      have hf : 0 ≤ ⌊(b - a) / d⌋ := Int.floor_nonneg.2 hp.le
      refine ⟨by rw [e]; omega, e, ?_⟩
      have hc : (0 : ℝ) < ((⌊(b - a) / d⌋ + 1 : ℤ) : ℝ) := by exact_mod_cast (by omega : 0 < ⌊(b - a) / d⌋ + 1)
      rw [div_lt_iff₀ hc]
      have := Int.lt_floor_add_one ((b - a) / d)
      rw [div_lt_iff₀ hd] at this
      push_cast
      linarith
    obtain ⟨x1, x2, x3⟩ := key minX maxX h1
    obtain ⟨y1, y2, y3⟩ := key minY maxY h2
    refine ⟨⟨maxX - minX, maxY - minY, toInt ((maxX - minX) / d) + 1, toInt ((maxY - minY) / d) + 1⟩, ?_⟩
    unfold Grid.new
    rw [if_neg (by push Not; exact ⟨h1, h2⟩)]
    dsimp only
    rw [if_neg (by push Not; exact ⟨y1, x1, by linarith, by linarith⟩)]
    refine ⟨_, rfl, ?_, rfl, rfl, rfl, by rw [x2], by rw [y2], by rw [x2]; exact x3, by rw [y2]; exact y3⟩
    exact empty_shows ⟨x1, sub_pos.2 h1⟩ ⟨y1, sub_pos.2 h2⟩ ⟨rfl, rfl, rfl, rfl⟩ ⟨rfl, rfl⟩ ⟨by simp, by simp⟩ rfl rfl (fun _ _ => rfl)

example : ∃ (f : Format) (g : Grid ℕ), Grid.new 0 10 0 10 4 = some g ∧ Shows f g ⟨0, 0, fun _ _ => []⟩ ∧ f.sizeX = 3 := by
  obtain ⟨f, g, h1, h2, -, -, -, h3, -⟩ := (C118_new (G := ℕ) 0 10 0 10 4).2 (by norm_num) (by norm_num) (by norm_num)
  refine ⟨f, g, h1, h2, ?_⟩
  rw [h3]
  norm_num

/-- Whatever is done with a grid, no access leaves its memory and the grid shows the sheet on which the same things were noted:
every cell has the largest value that was set there (at least 0) and, once each, exactly the grasps that were set with a
value of at least 100 or not smaller than the values before. -/
theorem C118_history [DecidableEq G] (f : Format) (g : Grid G) (s : Sheet G) (h : Shows f g s) (os : List (Op G)) :
    ∃ g', g.steps os = some g' ∧ Shows f g' (os.foldl (Sheet.step f) s) := steps_shows os h

example : ∃ (f : Format) (g g' : Grid ℕ), Grid.new 0 10 0 10 4 = some g ∧
    g.steps [.setEntry 1 1 7 (some 3), .setGridPosition 20 20, .setEntryCheckNeighbors 20 20 200 (some 4)] = some g' ∧
    Shows f g' ([Op.setEntry 1 1 7 (some 3), .setGridPosition 20 20, .setEntryCheckNeighbors 20 20 200 (some 4)].foldl (Sheet.step f) ⟨0, 0, fun _ _ => []⟩) := by
  obtain ⟨f, g, h1, h2, -⟩ := (C118_new (G := ℕ) 0 10 0 10 4).2 (by norm_num) (by norm_num) (by norm_num)
  obtain ⟨g', e, h⟩ := C118_history f g _ h2 [.setEntry 1 1 7 (some 3), .setGridPosition 20 20, .setEntryCheckNeighbors 20 20 200 (some 4)]
  exact ⟨f, g, g', h1, e, h⟩

theorem foldlM_max (data : ℤ × ℤ → Option ℤ) (v : ℤ × ℤ → ℤ) : ∀ (cs : List (ℤ × ℤ)) (m : ℤ) (_ : ∀ c ∈ cs, data c = some (v c)),
    ∃ r, cs.foldlM (fun nMax c => (data c).map fun d => if d > nMax then d else nMax) m = some r ∧ m ≤ r ∧ (∀ c ∈ cs, v c ≤ r) ∧
      (r = m ∨ ∃ c ∈ cs, v c = r)
  | [], m, _ => ⟨m, rfl, le_refl _, by simp, .inl rfl⟩
  | c :: cs, m, h => by
      obtain ⟨r, h1, h2, h3, h4⟩ := foldlM_max data v cs (if v c > m then v c else m) (fun c' hc' => h c' (List.mem_cons_of_mem _ hc'))
      refine ⟨r, ?_, ?_, ?_, ?_⟩
      · rw [List.foldlM_cons, h c (by simp)]
        exact h1
      · split_ifs at h2 <;> omega
      · intro c' hc'
        rcases List.mem_cons.1 hc' with rfl | hc'
        · split_ifs at h2 <;> omega
        · exact h3 c' hc'
      · rcases h4 with h4 | ⟨c', hc', h4⟩
        · split_ifs at h4 with hv
          · exact .inr ⟨c, by simp, h4.symm⟩
          · exact .inl h4
        · exact .inr ⟨c', List.mem_cons_of_mem _ hc', h4⟩

/-- What is asked of a grid is answered from the sheet: the entry of a cell and of every position in the cell, with
all its grasps, or with one of them (none if there is none), 0 or "no" for cells that are not in the grid, and the
largest entry of all. -/
theorem C118_queries (f : Format) (g : Grid G) (s : Sheet G) (h : Shows f g s) :
    (∀ i j, f.On i j → g.getCell i j = some (top (s.notes i j)) ∧
      (∃ l, g.getCellGrasps i j = some (some (top (s.notes i j), l)) ∧ l.Nodup ∧ ∀ q, q ∈ l ↔ Kept (s.notes i j) q) ∧
      (∀ r, ∃ o, g.getCellGrasp i j r = some (some (top (s.notes i j), o)) ∧ (∀ q, o = some q → Kept (s.notes i j) q) ∧
        (o = none → ∀ q, ¬ Kept (s.notes i j) q))) ∧
    (∀ i j, ¬ f.On i j → g.getCell i j = some 0 ∧ g.getCellGrasps i j = some none ∧ ∀ r, g.getCellGrasp i j r = some none) ∧
    (∀ x y i j, InCell s.lowX f.extendX f.sizeX i x → InCell s.lowY f.extendY f.sizeY j y →
      g.getEntry x y = g.getCell i j ∧ g.getEntryGrasps x y = g.getCellGrasps i j ∧ ∀ r, g.getEntryGrasp x y r = g.getCellGrasp i j r) ∧
    (∃ m, g.getMaxEntry = some m ∧ 0 ≤ m ∧ (∀ i j, f.On i j → top (s.notes i j) ≤ m) ∧
      (m = 0 ∨ ∃ i j, f.On i j ∧ top (s.notes i j) = m)) := by
  have hpos : ∀ i j, g.pos i j = (i * f.sizeY + j).toNat := by intro i j; unfold Grid.pos; rw [h.format.2.1]
  refine ⟨fun i j ho => ?_, fun i j ho => ?_, fun x y i j hx hy => ?_, ?_⟩
  · have hout : ¬ g.outside i j = true := by rw [outside_iff h]; exact not_not.2 ho
    obtain ⟨l, h1, h2, h3, h4⟩ := h.cell i j ho
    refine ⟨by rw [Grid.getCell, if_neg hout, hpos, h1], ⟨l, ?_, h3, h4⟩, fun r => ?_⟩
    · rw [Grid.getCellGrasps, if_neg hout, hpos, h1, h2]
      rfl
    · rw [Grid.getCellGrasp, if_neg hout, hpos, h1, h2]
      by_cases hl : l.length > 0
      · have hr : r % l.length < l.length := Nat.mod_lt _ hl
        refine ⟨some l[r % l.length], ?_, ?_, by simp⟩
        · simp only [Option.bind_eq_bind, Option.bind_some, if_pos hl, List.getElem?_eq_getElem hr]
        · intro q hq
          simp at hq
          rw [← h4, ← hq]
          exact List.getElem_mem hr
      · refine ⟨none, ?_, by simp, ?_⟩
        · simp only [Option.bind_eq_bind, Option.bind_some, if_neg hl]
        · intro _ q hq
          rw [← h4] at hq
          exact hl (List.length_pos_of_mem hq)
  · have hout : g.outside i j = true := by rw [outside_iff h]; exact ho
    exact ⟨by rw [Grid.getCell, if_pos hout], by rw [Grid.getCellGrasps, if_pos hout], fun r => by rw [Grid.getCellGrasp, if_pos hout]⟩
  · have ho : f.On i j := ⟨hx.1, hx.2.1, hy.1, hy.2.1⟩
    have hc := (cell_at h x y ho).2 ⟨.inl hx, .inl hy⟩
    exact ⟨by rw [Grid.getEntry, hc.1, hc.2], by rw [Grid.getEntryGrasps, hc.1, hc.2], fun r => by rw [Grid.getEntryGrasp, hc.1, hc.2]⟩
  · have hmem : ∀ c : ℤ × ℤ, c ∈ ((List.range g.sizeX.toNat).flatMap fun i : ℕ => (List.range g.sizeY.toNat).map fun j : ℕ => ((i : ℤ), (j : ℤ))) ↔
        f.On c.1 c.2 := by
      rintro ⟨i, j⟩
      rw [h.format.1, h.format.2.1]
      simp only [List.mem_flatMap, List.mem_map, List.mem_range, Prod.mk.injEq]
      unfold Format.On
      constructor
      · rintro ⟨a, ha, b, hb, rfl, rfl⟩; omega
      · rintro ⟨h1, h2, h3, h4⟩
        exact ⟨i.toNat, by omega, j.toNat, by omega, by omega, by omega⟩
    obtain ⟨m, h1, h2, h3, h4⟩ := foldlM_max (fun c => g.data[g.pos c.1 c.2]?) (fun c => top (s.notes c.1 c.2)) _ 0 (fun c hc => by
      obtain ⟨l, k1, -⟩ := h.cell c.1 c.2 ((hmem c).1 hc)
      rw [hpos, k1])
    refine ⟨m, h1, h2, fun i j ho => h3 (i, j) ((hmem (i, j)).2 ho), ?_⟩
    rcases h4 with h4 | ⟨c, hc, h4⟩
    · exact .inl h4
    · exact .inr ⟨c.1, c.2, (hmem c).1 hc, h4⟩

/-- Every position of the area is in exactly one cell. -/
theorem C118_partition (lo e : ℝ) (n : ℤ) (hn : 0 < n) (he : 0 < e) (x : ℝ) :
    (lo ≤ x ∧ x < lo + e ↔ ∃ i, InCell lo e n i x) ∧ ∀ i j, InCell lo e n i x → InCell lo e n j x → i = j := by
  have hn' : (0 : ℝ) < n := by exact_mod_cast hn
  have hp : 0 < e / n := by positivity
  have hsum : (n : ℝ) * (e / n) = e := by field_simp
  refine ⟨⟨fun ⟨h1, h2⟩ => ?_, ?_⟩, fun i j hi hj => ?_⟩
  · refine ⟨⌊(x - lo) / (e / n)⌋, Int.floor_nonneg.2 (div_nonneg (by linarith) hp.le), ?_, ?_, ?_⟩
    · rw [Int.floor_lt, div_lt_iff₀ hp]; linarith
    · have := Int.floor_le ((x - lo) / (e / n))
      rw [le_div_iff₀ hp] at this
      linarith
    · have := Int.lt_floor_add_one ((x - lo) / (e / n))
      rw [div_lt_iff₀ hp] at this
      linarith
  · rintro ⟨i, h1, h2, h3, h4⟩
    have a1 : (0 : ℝ) ≤ i := by exact_mod_cast h1
    have a2 : (i : ℝ) + 1 ≤ n := by exact_mod_cast h2
    have b1 : 0 ≤ (i : ℝ) * (e / n) := by positivity
    have b2 : ((i : ℝ) + 1) * (e / n) ≤ n * (e / n) := mul_le_mul_of_nonneg_right a2 hp.le
    constructor <;> linarith
  · exact (((cell_iff hn he hi.1 hi.2.1).2 (.inl hi)).symm.trans ((cell_iff hn he hj.1 hj.2.1).2 (.inl hj)))

/-- A position up to one cell below the grid is not outside: it is taken for one in the first cell, values
are set there and read from there. -/
theorem C118_below_false [DecidableEq G] (f : Format) (g : Grid G) (s : Sheet G) (h : Shows f g s) (x y : ℝ)
    (hx : s.lowX - f.extendX / f.sizeX < x) (hx' : x < s.lowX) (hy : s.lowY ≤ y) (hy' : y < s.lowY + f.extendY / f.sizeY) (v : ℤ)
    (q : Option G) :
    ¬ (∃ i, InCell s.lowX f.extendX f.sizeX i x) ∧
    ∃ g', g.setEntry x y v q = some g' ∧ g'.getEntry x y = some (max (top (s.notes 0 0)) v) := by
  have ho : f.On 0 0 := ⟨le_refl _, h.posX.1, le_refl _, h.posY.1⟩
  have hY : InCell s.lowY f.extendY f.sizeY 0 y := ⟨le_refl _, h.posY.1, by push_cast; linarith, by push_cast; linarith⟩
  have hat : s.At f x y 0 0 := ⟨.inr ⟨rfl, hx, hx'⟩, .inl hY⟩
  refine ⟨fun hi => ?_, ?_⟩
  · have := ((C118_partition s.lowX f.extendX f.sizeX h.posX.1 h.posX.2 x).1).2 hi
    linarith
  · obtain ⟨g', e, h'⟩ := setEntry_shows h x y v q
    refine ⟨g', e, ?_⟩
    have hc := (cell_at h' x y ho).2 hat
    rw [Grid.getEntry, hc.1, hc.2, ((C118_queries f g' _ h').1 0 0 ho).1]
    classical
    have : (s.note f (s.At f x y) v q).notes 0 0 = s.notes 0 0 ++ [(v, q)] := by simp [Sheet.note, ho, hat]
    rw [this, top_append]

/-- The documentation says that the neighbours get the value, too, if theirs is lower; this is not so if the cell is at
the border of the grid. -/
theorem C118_neighbours_false : ∃ (f : Format) (g g' : Grid ℕ) (s : Sheet ℕ), Shows f g s ∧
    g.setEntryCheckNeighbors 1 1 7 none = some g' ∧ g'.getEntry 1 1 = some 7 ∧ f.On 0 1 ∧ f.On 0 0 ∧ InCell s.lowX f.extendX f.sizeX 0 1 ∧
    InCell s.lowY f.extendY f.sizeY 0 1 ∧ g'.getCell 0 1 = some 0 := by
  obtain ⟨f, g, h1, h2, e1, e2, -, e3, e4, -⟩ := (C118_new (G := ℕ) 0 10 0 10 4).2 (by norm_num) (by norm_num) (by norm_num)
  have hfl : ⌊((10 : ℝ) - 0) / 4⌋ = 2 := by rw [Int.floor_eq_iff]; norm_num
  rw [hfl] at e3 e4
  have hx : InCell (0 : ℝ) f.extendX f.sizeX 0 1 := by
    rw [e1, e3]; exact ⟨le_refl _, by norm_num, by norm_num, by norm_num⟩
  have hy : InCell (0 : ℝ) f.extendY f.sizeY 0 1 := by
    rw [e2, e4]; exact ⟨le_refl _, by norm_num, by norm_num, by norm_num⟩
  obtain ⟨g', e, h'⟩ := setAround_shows h2 1 1 7 none
  have o00 : f.On 0 0 := by unfold Format.On; rw [e3, e4]; norm_num
  have o01 : f.On 0 1 := by unfold Format.On; rw [e3, e4]; norm_num
  have hat : (⟨0, 0, fun _ _ => []⟩ : Sheet ℕ).At f 1 1 0 0 := ⟨.inl hx, .inl hy⟩
  refine ⟨f, g, g', _, h2, e, ?_, o01, o00, hx, hy, ?_⟩
  · have hc := (cell_at h' 1 1 o00).2 ⟨.inl hx, .inl hy⟩
    rw [Grid.getEntry, hc.1, hc.2, ((C118_queries f g' _ h').1 0 0 o00).1]
    classical
    have : ∃ i j, (⟨0, 0, fun _ _ => []⟩ : Sheet ℕ).At f 1 1 i j ∧ f.Around i j 0 0 := ⟨0, 0, hat, .inl ⟨rfl, rfl⟩⟩
    simp only [Sheet.noteAround, Sheet.note]
    rw [if_pos ⟨o00, this⟩]
    rfl
  · rw [((C118_queries f g' _ h').1 0 1 o01).1]
    classical
    have : ¬ ∃ i j, (⟨0, 0, fun _ _ => []⟩ : Sheet ℕ).At f 1 1 i j ∧ f.Around i j 0 1 := by
      rintro ⟨i, j, hij, ha⟩
      have hi := (cell_at h2 1 1 (at_on h2 hij)).2 hij
      have hi0 := (cell_at h2 1 1 o00).2 hat
      have : i = 0 := by rw [← hi.1, hi0.1]
      have : j = 0 := by rw [← hi.2, hi0.2]
      subst i j
      rcases ha with ⟨-, h⟩ | ⟨h, -⟩ <;> omega
    simp only [Sheet.noteAround, Sheet.note]
    rw [if_neg (fun x => this x.2)]
    rfl

/-- The documentation says that `getEntry` with a grasp is true only if an entry greater than 0 was found; it is true
in an empty grid. -/
theorem C118_found_false : ∃ (g : Grid ℕ), Grid.new 0 10 0 10 4 = some g ∧ ∀ r, g.getEntryGrasp 1 1 r = some (some (0, none)) := by
  obtain ⟨f, g, h1, h2, e1, e2, -, e3, e4, -⟩ := (C118_new (G := ℕ) 0 10 0 10 4).2 (by norm_num) (by norm_num) (by norm_num)
  have hfl : ⌊((10 : ℝ) - 0) / 4⌋ = 2 := by rw [Int.floor_eq_iff]; norm_num
  rw [hfl] at e3 e4
  have hx : InCell (0 : ℝ) f.extendX f.sizeX 0 1 := by
    rw [e1, e3]; exact ⟨le_refl _, by norm_num, by norm_num, by norm_num⟩
  have hy : InCell (0 : ℝ) f.extendY f.sizeY 0 1 := by
    rw [e2, e4]; exact ⟨le_refl _, by norm_num, by norm_num, by norm_num⟩
  refine ⟨g, h1, fun r => ?_⟩
  have hq := C118_queries f g _ h2
  rw [((hq.2.2.1 1 1 0 0 hx hy).2.2 r)]
  obtain ⟨o, ho, hk, -⟩ := (hq.1 0 0 ⟨hx.1, hx.2.1, hy.1, hy.2.1⟩).2.2 r
  rw [ho]
  cases o with
  | none => rfl
  | some q =>
      obtain ⟨b, v, a, e, -⟩ := hk q rfl
      simp at e

/-! ## Random positions -/

/-- The cell of a draw. -/
def cellOfDraw (f : Format) (d : Draw) : ℤ × ℤ := ((d.x : ℤ) % f.sizeX, (d.y : ℤ) % f.sizeY)

theorem draw_on {f : Format} {g : Grid G} {s : Sheet G} (h : Shows f g s) (d : Draw) : f.On (cellOfDraw f d).1 (cellOfDraw f d).2 :=
  ⟨Int.emod_nonneg _ h.posX.1.ne', Int.emod_lt_of_pos _ h.posX.1, Int.emod_nonneg _ h.posY.1.ne', Int.emod_lt_of_pos _ h.posY.1⟩

/-- An attempt with the draw `d` succeeds. -/
def Hit (f : Format) (s : Sheet G) (minEntry : ℤ) (d : Draw) : Prop :=
  minEntry ≤ top (s.notes (cellOfDraw f d).1 (cellOfDraw f d).2)

/-- `r` is what an attempt with the draw `d` finds. -/
def FoundAt {A : Type} (f : Format) (g : Grid G) (s : Sheet G) (ok : ℤ → ℤ → A → Prop) (d : Draw) (r : Found A) : Prop :=
  let c := cellOfDraw f d
  r.entry = top (s.notes c.1 c.2) ∧ ok c.1 c.2 r.grasp ∧
    r.x = s.lowX + ((c.1 : ℝ) + 1 / 2) * g.discretizeSize ∧ r.y = s.lowY + ((c.2 : ℝ) + 1 / 2) * g.discretizeSize

theorem loop_spec {A : Type} {f : Format} {g : Grid G} {s : Sheet G} (h : Shows f g s) (look : ℤ → ℤ → ℕ → Option (Option (ℤ × A)))
    (ok : ℤ → ℤ → A → Prop) (hl : ∀ i j, f.On i j → ∀ r, ∃ o, look i j r = some (some (top (s.notes i j), o)) ∧ ok i j o)
    (minEntry : ℤ) (draws : ℕ → Draw) : ∀ loops k,
    (∃ m r, m ≤ loops ∧ (∀ m' < m, ¬ Hit f s minEntry (draws (k + m'))) ∧ Hit f s minEntry (draws (k + m)) ∧
      FoundAt f g s ok (draws (k + m)) r ∧ g.randomPosLoop look minEntry draws loops k = some (some r)) ∨
    ((∀ m ≤ loops, ¬ Hit f s minEntry (draws (k + m))) ∧ g.randomPosLoop look minEntry draws loops k = some none) := by
  intro loops
  induction loops with
  | zero =>
      intro k
      obtain ⟨o, ho, hk⟩ := hl _ _ (draw_on h (draws k)) (draws k).grasp
      unfold Grid.randomPosLoop
      dsimp only
      rw [h.format.1, h.format.2.1]
      simp only [cellOfDraw] at ho
      rw [ho]
      dsimp only
      by_cases hh : top (s.notes ((draws k).x % f.sizeX) ((draws k).y % f.sizeY)) ≥ minEntry
      · left
        refine ⟨0, _, le_refl _, by simp, hh, ?_, by rw [if_pos hh]⟩
        refine ⟨rfl, hk, ?_, ?_⟩ <;> simp only [Grid.cellPosition, h.low, cellOfDraw] <;> norm_num
      · right
        refine ⟨?_, by rw [if_neg hh]⟩
        intro m hm
        obtain rfl : m = 0 := by omega
        exact hh
  | succ loops ih =>
      intro k
      obtain ⟨o, ho, hk⟩ := hl _ _ (draw_on h (draws k)) (draws k).grasp
      unfold Grid.randomPosLoop
      dsimp only
      rw [h.format.1, h.format.2.1]
      simp only [cellOfDraw] at ho
      rw [ho]
      dsimp only
      by_cases hh : top (s.notes ((draws k).x % f.sizeX) ((draws k).y % f.sizeY)) ≥ minEntry
      · left
        refine ⟨0, _, Nat.zero_le _, by simp, hh, ?_, by rw [if_pos hh]⟩
        refine ⟨rfl, hk, ?_, ?_⟩ <;> simp only [Grid.cellPosition, h.low, cellOfDraw] <;> norm_num
      · rw [if_neg hh]
        rcases ih (k + 1) with ⟨m, r, h1, h2, h3, h4, h5⟩ | ⟨h1, h2⟩
        · left
          refine ⟨m + 1, r, by omega, ?_, by rw [show k + (m + 1) = k + 1 + m by omega]; exact h3,
            by rw [show k + (m + 1) = k + 1 + m by omega]; exact h4, h5⟩
          intro m' hm'
          rcases m' with _ | m'
          · exact hh
          · rw [show k + (m' + 1) = k + 1 + m' by omega]; exact h2 m' (by omega)
        · right
          refine ⟨?_, h2⟩
          intro m' hm'
          rcases m' with _ | m'
          · exact hh
          · rw [show k + (m' + 1) = k + 1 + m' by omega]; exact h1 m' (by omega)

/-- `getRandomPos`, for one grasp and for all the grasps: the first of the `maxLoops` drawn cells (there is at least one) whose
entry is large enough is taken, with its entry and one of its grasps, or all of them; it fails exactly if there is
none. -/
theorem C119_random (f : Format) (g : Grid G) (s : Sheet G) (h : Shows f g s) (minEntry : ℤ) (draws : ℕ → Draw) (maxLoops : ℤ) :
    ((∃ (k : ℕ) (r : Found (Option G)) (r' : Found (List G)), (k : ℤ) < max 1 maxLoops ∧ (∀ k' < k, ¬ Hit f s minEntry (draws k')) ∧
        Hit f s minEntry (draws k) ∧
        FoundAt f g s (fun i j o => (∀ q, o = some q → Kept (s.notes i j) q) ∧ (o = none → ∀ q, ¬ Kept (s.notes i j) q)) (draws k) r ∧
        g.getRandomPos minEntry draws maxLoops = some (some r) ∧
        FoundAt f g s (fun i j l => l.Nodup ∧ ∀ q, q ∈ l ↔ Kept (s.notes i j) q) (draws k) r' ∧
        g.getRandomPosGrasps minEntry draws maxLoops = some (some r')) ∨
      ((∀ k : ℕ, (k : ℤ) < max 1 maxLoops → ¬ Hit f s minEntry (draws k)) ∧ g.getRandomPos minEntry draws maxLoops = some none ∧
        g.getRandomPosGrasps minEntry draws maxLoops = some none)) := by
  have hq := C118_queries f g s h
  have hb : ∀ k : ℕ, (k : ℤ) < max 1 maxLoops ↔ k ≤ (maxLoops - 1).toNat := by intro k; omega
  rcases loop_spec h g.getCellGrasp (fun i j o => (∀ q, o = some q → Kept (s.notes i j) q) ∧ (o = none → ∀ q, ¬ Kept (s.notes i j) q))
      (fun i j ho r => (hq.1 i j ho).2.2 r) minEntry draws (maxLoops - 1).toNat 0 with ⟨m, r, h1, h2, h3, h4, h5⟩ | ⟨h1, h2⟩
  · rcases loop_spec h (fun x y _ => g.getCellGrasps x y) (fun i j l => l.Nodup ∧ ∀ q, q ∈ l ↔ Kept (s.notes i j) q)
      (fun i j ho r => (hq.1 i j ho).2.1) minEntry draws (maxLoops - 1).toNat 0 with ⟨m', r', k1, k2, k3, k4, k5⟩ | ⟨k1, k2⟩
    · simp only [Nat.zero_add] at h2 h3 h4 k2 k3 k4
      have : m = m' := by
        rcases lt_trichotomy m m' with hlt | hlt | hlt
        · exact absurd h3 (k2 m hlt)
        · exact hlt
        · exact absurd k3 (h2 m' hlt)
      subst this
      exact .inl ⟨m, r, r', (hb m).2 h1, h2, h3, h4, h5, k4, k5⟩
    · exact absurd h3 (k1 m h1)
  · rcases loop_spec h (fun x y _ => g.getCellGrasps x y) (fun i j l => l.Nodup ∧ ∀ q, q ∈ l ↔ Kept (s.notes i j) q)
      (fun i j ho r => (hq.1 i j ho).2.1) minEntry draws (maxLoops - 1).toNat 0 with ⟨m', r', k1, k2, k3, k4, k5⟩ | ⟨k1, k2⟩
    · exact absurd k3 (h1 m' k1)
    · simp only [Nat.zero_add] at h1
      exact .inr ⟨fun k hk => h1 k ((hb k).1 hk), h2, k2⟩

/-- The position that is found has the entry that is reported if it lies in the lower halves of the grid. Missing: the rest of the
grid, for which it is false (`C119_position_false`). -/
theorem C119_position_partial (f : Format) (g : Grid G) (s : Sheet G) (h : Shows f g s)
    (hfX : f.sizeX = ⌊f.extendX / g.discretizeSize⌋ + 1) (hfY : f.sizeY = ⌊f.extendY / g.discretizeSize⌋ + 1) (hd : 0 < g.discretizeSize)
    (minEntry : ℤ) (draws : ℕ → Draw) (maxLoops : ℤ) (r : Found (Option G)) (hr : g.getRandomPos minEntry draws maxLoops = some (some r))
    (hx : r.x < s.lowX + f.extendX / 2) (hy : r.y < s.lowY + f.extendY / 2) :
    g.getEntry r.x r.y = some r.entry ∧ minEntry ≤ r.entry := by
  have key : ∀ (e : ℝ) (n i : ℤ) (lo : ℝ), 0 < e → n = ⌊e / g.discretizeSize⌋ + 1 → 0 ≤ i → i < n →
      lo + ((i : ℝ) + 1 / 2) * g.discretizeSize < lo + e / 2 → InCell lo e n i (lo + ((i : ℝ) + 1 / 2) * g.discretizeSize) := by
    intro e n i lo he hn h0 h1 hlt
    generalize hD : g.discretizeSize = d at *
    have hn1 : (1 : ℝ) ≤ n := by
      have : (1 : ℤ) ≤ n := by omega
      exact_mod_cast this
    have hnp : (0 : ℝ) < n := by linarith
    have a1 := Int.floor_le (e / d)
    have a2 := Int.lt_floor_add_one (e / d)
    have hn' : (n : ℝ) = ⌊e / d⌋ + 1 := by rw [hn]; push_cast; ring
    rw [← hn', div_lt_iff₀ hd] at a2
    have a1' : (n : ℝ) - 1 ≤ e / d := by rw [hn']; linarith
    rw [le_div_iff₀ hd] at a1'
    have hi : (0 : ℝ) ≤ i := by exact_mod_cast h0
    have hlt' : ((2 : ℝ) * i + 1) * d < e := by linarith
    have hle : e / n ≤ d := by rw [div_le_iff₀ hnp]; linarith
    refine ⟨h0, h1, ?_, ?_⟩
    · have : (i : ℝ) * (e / n) ≤ i * d := mul_le_mul_of_nonneg_left hle hi
      linarith
    · have hgoal : ((i : ℝ) + 1 / 2) * d < (i + 1) * (e / n) := by
        rw [← mul_div_assoc, lt_div_iff₀ hnp]
        have e1 : (n : ℝ) * d ≤ e + d := by linarith
        have e2 : ((i : ℝ) + 1 / 2) * (n * d) ≤ (i + 1 / 2) * (e + d) := mul_le_mul_of_nonneg_left e1 (by linarith)
        linarith
      linarith
  rcases C119_random f g s h minEntry draws maxLoops with ⟨k, r', -, -, -, hh, hf, e, -⟩ | ⟨-, e, -⟩
  · rw [e] at hr
    obtain rfl : r' = r := by simpa using hr
    obtain ⟨f1, -, f3, f4⟩ := hf
    have ho := draw_on h (draws k)
    have cx := key f.extendX f.sizeX (cellOfDraw f (draws k)).1 s.lowX h.posX.2 hfX ho.1 ho.2.1 (by rw [← f3]; exact hx)
    have cy := key f.extendY f.sizeY (cellOfDraw f (draws k)).2 s.lowY h.posY.2 hfY ho.2.2.1 ho.2.2.2 (by rw [← f4]; exact hy)
    have hq := C118_queries f g s h
    rw [← f3] at cx
    rw [← f4] at cy
    rw [(hq.2.2.1 _ _ _ _ cx cy).1, (hq.1 _ _ ho).1, f1]
    exact ⟨rfl, hh⟩
  · rw [e] at hr
    simp at hr

example : ∃ (f : Format) (g : Grid ℕ) (s : Sheet ℕ) (r : Found (Option ℕ)), Shows f g s ∧ f.sizeX = ⌊f.extendX / g.discretizeSize⌋ + 1 ∧
    g.getRandomPos 0 (fun _ => ⟨0, 0, 0⟩) 50 = some (some r) ∧ r.x < s.lowX + f.extendX / 2 := by
  obtain ⟨f, g, h1, h2, e1, e2, e5, e3, -⟩ := (C118_new (G := ℕ) 0 10 0 10 4).2 (by norm_num) (by norm_num) (by norm_num)
  rcases C119_random f g _ h2 0 (fun _ => ⟨0, 0, 0⟩) 50 with ⟨k, r, -, -, -, -, hf, er, -⟩ | ⟨hn, -⟩
  · refine ⟨f, g, _, r, h2, by rw [e3, e1, e5], er, ?_⟩
    rw [hf.2.2.1, e1, e5]
    simp [cellOfDraw]
    norm_num
  · exact absurd (by simp [Hit, top]) (hn 0 (by norm_num))

/-- The position that is found can lie outside of the grid, where there is no entry: the distance of the positions is the given
size, but the cells are smaller. -/
theorem C119_position_false : ∃ (g₀ g : Grid ℕ) (r : Found (Option ℕ)), Grid.new 0 10 0 10 10 = some g₀ ∧ g₀.setEntry 9 9 7 none = some g ∧
    g.getRandomPos 7 (fun _ => ⟨1, 1, 0⟩) 50 = some (some r) ∧ r.entry = 7 ∧ r.x = 15 ∧ r.y = 15 ∧ g.maxX = 10 ∧ g.maxY = 10 ∧
    g.getEntry r.x r.y = some 0 := by
  obtain ⟨f, g₀, h1, h2, e1, e2, e5, e3, e4, -⟩ := (C118_new (G := ℕ) 0 10 0 10 10).2 (by norm_num) (by norm_num) (by norm_num)
  have hfl : ⌊((10 : ℝ) - 0) / 10⌋ = 1 := by rw [Int.floor_eq_iff]; norm_num
  rw [hfl] at e3 e4
  norm_num at e1 e2 e3 e4
  obtain ⟨g, e, h'⟩ := setEntry_shows h2 9 9 7 none
  have hx : InCell (0 : ℝ) f.extendX f.sizeX 1 9 := by
    rw [e1, e3]; exact ⟨by norm_num, by norm_num, by norm_num, by norm_num⟩
  have hy : InCell (0 : ℝ) f.extendY f.sizeY 1 9 := by
    rw [e2, e4]; exact ⟨by norm_num, by norm_num, by norm_num, by norm_num⟩
  have ho : f.On 1 1 := ⟨hx.1, hx.2.1, hy.1, hy.2.1⟩
  have htop : top ((Sheet.note f ⟨0, 0, fun _ _ => []⟩ (Sheet.At f (⟨0, 0, fun _ _ => []⟩ : Sheet ℕ) 9 9) 7 (none : Option ℕ)).notes 1 1) = 7 := by
    classical
    have : Sheet.At f (⟨0, 0, fun _ _ => []⟩ : Sheet ℕ) 9 9 1 1 := ⟨.inl hx, .inl hy⟩
    simp [Sheet.note, ho, this, top]
  have hcell : cellOfDraw f ⟨1, 1, 0⟩ = (1, 1) := by simp [cellOfDraw, e3, e4]
  rcases C119_random f g _ h' 7 (fun _ => ⟨1, 1, 0⟩) 50 with ⟨k, r, -, -, -, -, hf, er, -⟩ | ⟨hn, -⟩
  · obtain ⟨f1, -, f3, f4⟩ := hf
    rw [hcell] at f1 f3 f4
    have hdg : g.discretizeSize = 10 := by
      rw [setEntry_discretize e, e5]
    rw [hdg] at f3 f4
    simp only [Sheet.note] at f3 f4
    norm_num at f3 f4
    refine ⟨g₀, g, r, h1, e, er, by rw [f1]; exact htop, f3, f4, ?_, ?_, ?_⟩
    · rw [h'.high.1, e1]; simp [Sheet.note]
    · rw [h'.high.2, e2]; simp [Sheet.note]
    · have hout : g.getCell (g.cellX r.x) (g.cellY r.y) = some 0 := by
        apply ((C118_queries f g _ h').2.1 _ _ _).1
        intro hon
        have := ((cell_at h' r.x r.y hon).1 ⟨rfl, rfl⟩).1
        generalize g.cellX r.x = a at *
        rcases this with hin | ⟨-, -, hlt⟩
        · have := ((C118_partition _ f.extendX f.sizeX h'.posX.1 h'.posX.2 r.x).1).2 ⟨_, hin⟩
          rw [f3, e1] at this
          simp only [Sheet.note] at this
          norm_num at this
        · rw [f3] at hlt
          simp only [Sheet.note] at hlt
          norm_num at hlt
      exact hout
  · exact absurd (by unfold Hit; rw [hcell, htop]) (hn 0 (by norm_num))

end Simox.Wsg
