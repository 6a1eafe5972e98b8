/-
Helper lemmas for the scene registry.
-/
import Mathlib.Data.List.Nodup
import Mathlib.Data.List.Induction
import Verif.Scene.Spec

namespace Simox.Scn

/-! ### Histories -/

/-- Present after a history means put in at some time and not taken out since. -/
theorem history_iff {α : Type} (present : List α → Prop) (In : α → Prop) (Out : List α → α → Prop)
    (h0 : ¬ present [])
    (hs : ∀ h op, present (h ++ [op]) ↔ In op ∨ (present h ∧ ¬ Out h op)) (h : List α) :
    present h ↔ ∃ h1 op h2, h = h1 ++ op :: h2 ∧ In op ∧
      ∀ a o b, h2 = a ++ o :: b → ¬ Out (h1 ++ op :: a) o := by
  induction h using List.reverseRecOn with
  | nil =>
    refine ⟨fun h => absurd h h0, ?_⟩
    rintro ⟨h1, op, h2, e, _⟩
    simp at e
  | append_singleton h x ih =>
    rw [hs]
    constructor
    · rintro (hin | ⟨hp, ho⟩)
      · exact ⟨h, x, [], rfl, hin, fun a o b e => by simp at e⟩
      · obtain ⟨h1, op, h2, e, hin, hout⟩ := ih.1 hp
        refine ⟨h1, op, h2 ++ [x], by simp [e], hin, ?_⟩
        intro a o b e'
        rcases List.eq_nil_or_concat b with hb | ⟨b', y, hb⟩
        · subst hb
          have := List.append_inj' e' rfl
          obtain ⟨e1, e2⟩ := this
          simp at e2
          subst e1; subst e2
          rw [← e]; exact ho
        · subst hb
          have e3 : h2 ++ [x] = (a ++ o :: b') ++ [y] := by simpa using e'
          exact hout a o b' (List.append_inj' e3 rfl).1
    · rintro ⟨h1, op, h2, e, hin, hout⟩
      rcases List.eq_nil_or_concat h2 with hb | ⟨h2', y, hb⟩
      · subst hb
        have := (List.append_inj' e rfl).2
        simp at this
        subst this
        exact Or.inl hin
      · subst hb
        have e3 : h ++ [x] = (h1 ++ op :: h2') ++ [y] := by simpa using e
        obtain ⟨e1, e2⟩ := List.append_inj' e3 rfl
        simp at e2
        subst e2
        right
        refine ⟨ih.2 ⟨h1, op, h2', e1, hin, fun a o b e' => ?_⟩, ?_⟩
        · exact hout a o (b ++ [x]) (by simp [e'])
        · rw [e1]
          exact hout h2' x [] (by simp)

/-! ### Vectors -/

theorem has_iff (l : List Nat) (e : Nat) : has l e = true ↔ e ∈ l := by simp [has]

theorem hasNamed_iff (nm : Nat → String) (l : List Nat) (n : String) :
    hasNamed nm l n = true ↔ ∃ x ∈ l, nm x = n := by simp [hasNamed]

theorem getNamed_some (nm : Nat → String) (l : List Nat) (n : String) (e : Nat) :
    getNamed nm l n = some e ↔ FirstNamed nm l n e := by
  induction l with
  | nil =>
    constructor
    · intro h; simp [getNamed] at h
    · rintro ⟨a, b, h, _⟩; simp at h
  | cons x xs ih =>
    unfold getNamed
    by_cases hx : nm x = n
    · simp only [hx, beq_self_eq_true, if_true]
      constructor
      · intro h
        cases h
        exact ⟨[], xs, rfl, hx, by simp⟩
      · rintro ⟨a, b, h, hn, ha⟩
        cases a with
        | nil => simp at h; rw [h.1]
        | cons y ys =>
          simp at h
          exact absurd (h.1 ▸ hx) (ha y (by simp))
    · have : (nm x == n) = false := by simpa using hx
      simp only [this, Bool.false_eq_true, if_false]
      rw [ih]
      constructor
      · rintro ⟨a, b, h, hn, ha⟩
        refine ⟨x :: a, b, by simp [h], hn, ?_⟩
        intro y hy
        rcases List.mem_cons.1 hy with rfl | hy
        · exact hx
        · exact ha y hy
      · rintro ⟨a, b, h, hn, ha⟩
        cases a with
        | nil => simp at h; exact absurd (h.1 ▸ hn) hx
        | cons y ys =>
          simp at h
          exact ⟨ys, b, h.2, hn, fun z hz => ha z (by simp [hz])⟩

theorem getNamed_none (nm : Nat → String) (l : List Nat) (n : String) :
    getNamed nm l n = none ↔ ∀ x ∈ l, nm x ≠ n := by
  induction l with
  | nil => simp [getNamed]
  | cons x xs ih =>
    unfold getNamed
    by_cases hx : nm x = n
    · simp [hx]
    · have : (nm x == n) = false := by simpa using hx
      simp only [this, Bool.false_eq_true, if_false]
      rw [ih]
      simp [hx]

theorem eraseFirst_split (hit : Nat → Bool) (a b : List Nat) (e : Nat) (he : hit e = true)
    (ha : ∀ x ∈ a, hit x = false) : eraseFirst hit (a ++ e :: b) = a ++ b := by
  induction a with
  | nil => simp [eraseFirst, he]
  | cons x xs ih =>
    have hx := ha x (by simp)
    simp only [List.cons_append, eraseFirst, hx, Bool.false_eq_true, if_false]
    rw [ih (fun y hy => ha y (by simp [hy]))]

theorem filter_split {a b : List Nat} {e : Nat} (h : (a ++ e :: b).Nodup) :
    (a ++ e :: b).filter (fun x => decide (x ≠ e)) = a ++ b := by
  have h1 := (List.nodup_middle.1 h)
  have hn : e ∉ a ++ b := (List.nodup_cons.1 h1).1
  rw [List.filter_append, List.filter_cons]
  simp only [ne_eq, not_true_eq_false, decide_false, Bool.false_eq_true, if_false]
  rw [← List.filter_append]
  rw [List.filter_eq_self]
  intro x hx
  simp only [decide_eq_true_eq]
  exact fun e' => hn (e' ▸ hx)

/-- Erasing by pointer leaves all others in their order. -/
theorem deRegister_eq {l : List Nat} (hl : l.Nodup) (e : Nat) :
    deRegister l e = l.filter (fun x => decide (x ≠ e)) := by
  unfold deRegister
  by_cases h : e ∈ l
  · rw [if_pos ((has_iff l e).2 h)]
    obtain ⟨a, b, rfl⟩ := List.append_of_mem h
    rw [filter_split hl, eraseFirst_split]
    · simp
    · intro x hx
      have hn : e ∉ a ++ b := (List.nodup_cons.1 (List.nodup_middle.1 hl)).1
      simp only [beq_eq_false_iff_ne, ne_eq]
      exact fun e' => hn (by simp [← e', hx])
  · rw [if_neg (fun e' => h ((has_iff l e).1 e'))]
    symm
    rw [List.filter_eq_self]
    intro x hx
    simp only [decide_eq_true_eq]
    exact fun e' => h (e' ▸ hx)

theorem deRegisterNamed_first {nm : Nat → String} {l : List Nat} (hl : l.Nodup) {n : String}
    {e : Nat} (hf : FirstNamed nm l n e) :
    deRegisterNamed nm l n = l.filter (fun x => decide (x ≠ e)) := by
  obtain ⟨a, b, rfl, hn, ha⟩ := hf
  unfold deRegisterNamed
  rw [if_pos ((hasNamed_iff _ _ _).2 ⟨e, by simp, hn⟩), filter_split hl, eraseFirst_split]
  · simpa using hn
  · intro x hx; simpa using ha x hx

theorem deRegisterNamed_none {nm : Nat → String} {l : List Nat} {n : String}
    (h : ∀ x ∈ l, nm x ≠ n) : deRegisterNamed nm l n = l := by
  unfold deRegisterNamed
  rw [if_neg]
  intro e
  obtain ⟨x, hx, hn⟩ := (hasNamed_iff _ _ _).1 e
  exact h x hx hn

theorem firstNamed_or (nm : Nat → String) (l : List Nat) (n : String) :
    (∃ e, FirstNamed nm l n e) ∨ ∀ x ∈ l, nm x ≠ n := by
  cases h : getNamed nm l n with
  | some e => exact Or.inl ⟨e, (getNamed_some nm l n e).1 h⟩
  | none => exact Or.inr ((getNamed_none nm l n).1 h)

theorem FirstNamed.unique {nm : Nat → String} {l : List Nat} {n : String} {e e' : Nat}
    (h : FirstNamed nm l n e) (h' : FirstNamed nm l n e') : e = e' := by
  have h1 := (getNamed_some nm l n e).2 h
  rw [(getNamed_some nm l n e').2 h'] at h1
  exact (Option.some.inj h1).symm

theorem FirstNamed.mem {nm : Nat → String} {l : List Nat} {n : String} {e : Nat}
    (h : FirstNamed nm l n e) : e ∈ l := by
  obtain ⟨a, b, rfl, _⟩ := h; simp

theorem register_eq (l : List Nat) (e : Nat) : register l e = if e ∈ l then l else l ++ [e] := by
  unfold register
  by_cases h : e ∈ l
  · rw [if_pos ((has_iff l e).2 h), if_pos h]
  · rw [if_neg (fun e' => h ((has_iff l e).1 e')), if_neg h]

theorem register_nodup {l : List Nat} (hl : l.Nodup) (e : Nat) : (register l e).Nodup := by
  rw [register_eq]
  by_cases h : e ∈ l
  · rw [if_pos h]; exact hl
  · rw [if_neg h, List.nodup_append]
    refine ⟨hl, List.nodup_singleton _, ?_⟩
    intro a ha b hb
    rw [List.mem_singleton] at hb
    subst hb
    exact fun e => h (e ▸ ha)

theorem mem_register {l : List Nat} {e x : Nat} : x ∈ register l e ↔ x ∈ l ∨ x = e := by
  rw [register_eq]
  by_cases h : e ∈ l
  · rw [if_pos h]
    refine ⟨Or.inl, ?_⟩
    rintro (h' | rfl)
    · exact h'
    · exact h
  · rw [if_neg h]; simp

theorem deRegisterNamed_nodup {nm : Nat → String} {l : List Nat} (hl : l.Nodup) (n : String) :
    (deRegisterNamed nm l n).Nodup := by
  rcases firstNamed_or nm l n with ⟨e, hf⟩ | h
  · rw [deRegisterNamed_first hl hf]; exact hl.filter _
  · rw [deRegisterNamed_none h]; exact hl

theorem mem_deRegister {l : List Nat} (hl : l.Nodup) {e x : Nat} :
    x ∈ deRegister l e ↔ x ∈ l ∧ x ≠ e := by
  rw [deRegister_eq hl]; simp

theorem mem_deRegisterNamed {nm : Nat → String} {l : List Nat} (hl : l.Nodup) {n : String}
    {x : Nat} : x ∈ deRegisterNamed nm l n ↔ x ∈ l ∧ ¬ FirstNamed nm l n x := by
  rcases firstNamed_or nm l n with ⟨e, hf⟩ | h
  · rw [deRegisterNamed_first hl hf]
    simp only [ne_eq, List.mem_filter, decide_eq_true_eq]
    constructor
    · rintro ⟨h1, h2⟩
      exact ⟨h1, fun h3 => h2 (h3.unique hf)⟩
    · rintro ⟨h1, h2⟩
      exact ⟨h1, fun e' => h2 (e' ▸ hf)⟩
  · rw [deRegisterNamed_none h]
    refine ⟨fun hx => ⟨hx, fun hf => ?_⟩, fun hx => hx.1⟩
    obtain ⟨a, b, _, hn, _⟩ := hf
    exact h x hx hn

/-! ### The map -/

theorem lookup_cons (k r : Nat) (v : List Nat) (m : List (Nat × List Nat)) :
    List.lookup r ((k, v) :: m) = if r = k then some v else List.lookup r m := by
  by_cases h : r = k
  · subst h; simp
  · have : (r == k) = false := by simpa using h
    simp [List.lookup, this, h]

theorem lookup_insertKey {m : List (Nat × List Nat)} {r : Nat} (v : List Nat) (r' : Nat)
    (h : List.lookup r m = none) :
    List.lookup r' (insertKey r v m) = if r' = r then some v else List.lookup r' m := by
  induction m with
  | nil => unfold insertKey; rw [lookup_cons]
  | cons kv m ih =>
    obtain ⟨k, u⟩ := kv
    rw [lookup_cons] at h
    by_cases hk : r = k
    · rw [if_pos hk] at h; exact absurd h (by simp)
    · rw [if_neg hk] at h
      unfold insertKey
      by_cases hlt : r < k
      · rw [if_pos hlt, lookup_cons]
      · rw [if_neg hlt, lookup_cons, lookup_cons, ih h]
        by_cases h1 : r' = k
        · have : r' ≠ r := fun e => hk (e ▸ h1)
          rw [if_pos h1, if_neg this, if_pos h1]
        · rw [if_neg h1, if_neg h1]

theorem lookup_assign {m : List (Nat × List Nat)} {r : Nat} (v : List Nat) (r' : Nat)
    {u : List Nat} (h : List.lookup r m = some u) :
    List.lookup r' (assign r v m) = if r' = r then some v else List.lookup r' m := by
  induction m with
  | nil => simp at h
  | cons kv m ih =>
    obtain ⟨k, x⟩ := kv
    unfold assign
    by_cases hk : k = r
    · subst hk
      rw [if_pos rfl, lookup_cons, lookup_cons]
      by_cases h1 : r' = k
      · rw [if_pos h1, if_pos h1]
      · rw [if_neg h1, if_neg h1, if_neg h1]
    · rw [if_neg hk, lookup_cons, lookup_cons]
      rw [lookup_cons, if_neg (Ne.symm hk)] at h
      rw [ih h]
      by_cases h1 : r' = k
      · have : r' ≠ r := fun e => hk (h1 ▸ e)
        rw [if_pos h1, if_neg this, if_pos h1]
      · rw [if_neg h1, if_neg h1]

theorem at_touch (m : List (Nat × List Nat)) (r r' : Nat) : at' (touch m r) r' = at' m r' := by
  unfold touch at' find
  cases h : List.lookup r m with
  | some v => rfl
  | none =>
    simp only
    rw [lookup_insertKey [] r' h]
    by_cases e : r' = r
    · subst e; rw [if_pos rfl, h]; rfl
    · rw [if_neg e]

theorem find_touch (m : List (Nat × List Nat)) (r : Nat) :
    ∃ u, List.lookup r (touch m r) = some u := by
  unfold touch find
  cases h : List.lookup r m with
  | some v => exact ⟨v, h⟩
  | none => exact ⟨[], by simp only; rw [lookup_insertKey [] r h, if_pos rfl]⟩

theorem at_assign_touch (m : List (Nat × List Nat)) (r : Nat) (v : List Nat) (r' : Nat) :
    at' (assign r v (touch m r)) r' = if r' = r then v else at' m r' := by
  obtain ⟨u, hu⟩ := find_touch m r
  rw [← at_touch m r r']
  unfold at' find
  rw [lookup_assign v r' hu]
  by_cases e : r' = r
  · rw [if_pos e, if_pos e]; rfl
  · rw [if_neg e, if_neg e]

theorem at_registerConfig (m : List (Nat × List Nat)) (r c r' : Nat) :
    at' (registerConfig m r c) r' = if r' = r then register (at' m r) c else at' m r' := by
  unfold registerConfig register
  simp only [at_touch]
  by_cases h : has (at' m r) c = true
  · rw [if_pos h, if_pos h, at_touch]
    by_cases e : r' = r
    · rw [if_pos e, e]
    · rw [if_neg e]
  · rw [if_neg h, if_neg h, at_assign_touch]

theorem at_deRegisterConfig (m : List (Nat × List Nat)) (r c r' : Nat) :
    at' (deRegisterConfig m r c) r' = if r' = r then deRegister (at' m r) c else at' m r' := by
  unfold deRegisterConfig deRegister
  simp only [at_touch]
  by_cases h : has (at' m r) c = true
  · rw [if_pos h, if_pos h, at_assign_touch]
  · rw [if_neg h, if_neg h, at_touch]
    by_cases e : r' = r
    · rw [if_pos e, e]
    · rw [if_neg e]

theorem at_deRegisterConfigNamed (nm : Nat → String) (m : List (Nat × List Nat)) (r : Nat)
    (n : String) (r' : Nat) : at' (deRegisterConfigNamed nm m r n) r' =
      if r' = r then deRegisterNamed nm (at' m r) n else at' m r' := by
  unfold deRegisterConfigNamed deRegisterNamed
  simp only [at_touch]
  by_cases h : hasNamed nm (at' m r) n = true
  · rw [if_pos h, if_pos h, at_assign_touch]
  · rw [if_neg h, if_neg h, at_touch]
    by_cases e : r' = r
    · rw [if_pos e, e]
    · rw [if_neg e]

/-- Registering a list of configurations, up to the first null pointer. -/
def regSome (l : List Nat) : List (Option Nat) → List Nat
  | [] => l
  | none :: _ => l
  | some c :: cs => regSome (register l c) cs

theorem at_registerConfigs (cs : List (Option Nat)) :
    ∀ (m : List (Nat × List Nat)) (r r' : Nat), at' (registerConfigs m r cs).1 r' =
      if r' = r then regSome (at' m r) cs else at' m r' := by
  induction cs with
  | nil =>
    intro m r r'
    by_cases e : r' = r
    · rw [if_pos e, e]; rfl
    · rw [if_neg e]; rfl
  | cons c cs ih =>
    intro m r r'
    cases c with
    | none =>
      by_cases e : r' = r
      · rw [if_pos e, e]; rfl
      · rw [if_neg e]; rfl
    | some c =>
      unfold registerConfigs regSome
      rw [ih, at_registerConfig, at_registerConfig, if_pos rfl]
      by_cases e : r' = r
      · rw [if_pos e, if_pos e]
      · rw [if_neg e, if_neg e, if_neg e]

theorem regSome_nodup (cs : List (Option Nat)) : ∀ l : List Nat, l.Nodup → (regSome l cs).Nodup := by
  induction cs with
  | nil => intro l h; exact h
  | cons c cs ih =>
    intro l h
    cases c with
    | none => exact h
    | some c => exact ih _ (register_nodup h c)

theorem mem_regSome (cs : List (Option Nat)) : ∀ (l : List Nat) (x : Nat),
    x ∈ regSome l cs ↔ x ∈ l ∨ ∃ (ds : List Nat) (rest : List (Option Nat)),
      cs = ds.map some ++ rest ∧ x ∈ ds := by
  induction cs with
  | nil =>
    intro l x
    refine ⟨Or.inl, ?_⟩
    rintro (h | ⟨ds, rest, h, hx⟩)
    · exact h
    · have h1 := (List.append_eq_nil_iff.1 h.symm).1
      have h2 : ds = [] := List.map_eq_nil_iff.1 h1
      rw [h2] at hx; simp at hx
  | cons c cs ih =>
    intro l x
    cases c with
    | none =>
      refine ⟨Or.inl, ?_⟩
      rintro (h | ⟨ds, rest, h, hx⟩)
      · exact h
      · cases ds with
        | nil => simp at hx
        | cons d ds => simp at h
    | some c =>
      unfold regSome
      rw [ih, mem_register]
      constructor
      · rintro ((h | h) | ⟨ds, rest, h, hx⟩)
        · exact Or.inl h
        · exact Or.inr ⟨[c], cs, by simp, by simp [h]⟩
        · exact Or.inr ⟨c :: ds, rest, by simp [h], by simp [hx]⟩
      · rintro (h | ⟨ds, rest, h, hx⟩)
        · exact Or.inl (Or.inl h)
        · cases ds with
          | nil => simp at hx
          | cons d ds =>
            simp at h
            rcases List.mem_cons.1 hx with e | hx
            · exact Or.inl (Or.inr (e.trans h.1.symm))
            · exact Or.inr ⟨ds, rest, h.2, hx⟩

/-! ### Steps -/

theorem list_setList (s : Scene) (k k' : Kind) (l : List Nat) :
    (s.setList k l).list k' = if k' = k then l else s.list k' := by
  cases k <;> cases k' <;> rfl

theorem configs_setList (s : Scene) (k : Kind) (l : List Nat) :
    (s.setList k l).configs = s.configs := by
  cases k <;> rfl

/-- The vectors after a call. -/
def nextList (w : World) (op : Op) (k : Kind) : List Nat :=
  match op with
  | .register k' (some e) => if k = k' then register (w.scene.list k) e else w.scene.list k
  | .deRegister k' (some e) => if k = k' then deRegister (w.scene.list k) e else w.scene.list k
  | .deRegisterNamed k' n =>
    if k = k' then deRegisterNamed (w.name k) (w.scene.list k) n else w.scene.list k
  | _ => w.scene.list k

theorem step_list (w : World) (op : Op) (k : Kind) :
    (step w op).1.scene.list k = nextList w op k := by
  cases op with
  | register k' e =>
    cases e with
    | none => rfl
    | some e =>
      simp only [step, nextList, World.setList, list_setList]
      by_cases h : k = k'
      · subst h; rfl
      · rw [if_neg h, if_neg h]
  | deRegister k' e =>
    cases e with
    | none => rfl
    | some e =>
      simp only [step, nextList, World.setList, list_setList]
      by_cases h : k = k'
      · subst h; rfl
      · rw [if_neg h, if_neg h]
  | deRegisterNamed k' n =>
    simp only [step, nextList, World.setList, list_setList]
    by_cases h : k = k'
    · subst h; rfl
    · rw [if_neg h, if_neg h]
  | has k' e => cases e <;> rfl
  | hasNamed k' n => rfl
  | get k' n => rfl
  | getAll k' => rfl
  | getTrajectories r => rfl
  | rename k' e n => rfl
  | registerConfig r c => cases r <;> cases c <;> rfl
  | registerConfigs r cs =>
    cases cs with
    | nil => cases r <;> rfl
    | cons c cs => cases r <;> rfl
  | deRegisterConfig r c => cases r <;> cases c <;> rfl
  | deRegisterConfigNamed r n => cases r <;> rfl
  | hasConfig r c => cases r <;> cases c <;> rfl
  | hasConfigNamed r n => cases r <;> rfl
  | getConfig r n => cases r <;> rfl
  | getConfigOf rn n => simp only [step, nextList]; split <;> rfl
  | getConfigs r =>
    cases r with
    | none => rfl
    | some r => simp only [step, nextList]; split <;> rfl

/-- The configurations of a robot after a call. -/
def nextConfigs (w : World) (op : Op) (r : Nat) : List Nat :=
  match op with
  | .registerConfig (some r') (some c) =>
    if r = r' then register (configsOf w r) c else configsOf w r
  | .registerConfigs (some r') cs => if r = r' then regSome (configsOf w r) cs else configsOf w r
  | .deRegisterConfig (some r') (some c) =>
    if r = r' then deRegister (configsOf w r) c else configsOf w r
  | .deRegisterConfigNamed (some r') n =>
    if r = r' then deRegisterNamed w.configName (configsOf w r) n else configsOf w r
  | _ => configsOf w r

theorem configsOf_eq (w : World) (r : Nat) : configsOf w r = at' w.scene.configs r := rfl

theorem configsOf_setList (w : World) (k : Kind) (l : List Nat) (r : Nat) :
    configsOf (w.setList k l) r = configsOf w r := by
  unfold configsOf World.setList
  simp only [configs_setList]

theorem step_configs (w : World) (op : Op) (r : Nat) :
    configsOf (step w op).1 r = nextConfigs w op r := by
  cases op with
  | register k' e => cases e <;> first | rfl | exact configsOf_setList _ _ _ _
  | deRegister k' e => cases e <;> first | rfl | exact configsOf_setList _ _ _ _
  | deRegisterNamed k' n => exact configsOf_setList _ _ _ _
  | has k' e => cases e <;> rfl
  | hasNamed k' n => rfl
  | get k' n => rfl
  | getAll k' => rfl
  | getTrajectories r => rfl
  | rename k' e n => rfl
  | registerConfig r' c =>
    cases r' with
    | none => rfl
    | some r' =>
      cases c with
      | none => rfl
      | some c =>
        refine (at_registerConfig _ r' c r).trans ?_
        by_cases h : r = r'
        · subst h; rw [if_pos rfl]; simp only [nextConfigs, if_true]; rfl
        · simp only [nextConfigs, if_neg h]; rfl
  | registerConfigs r' cs =>
    cases r' with
    | none => cases cs <;> rfl
    | some r' =>
      have : (step w (.registerConfigs (some r') cs)).1 =
          w.setConfigs (registerConfigs w.scene.configs r' cs).1 := by
        cases cs <;> rfl
      rw [this]
      refine (at_registerConfigs cs _ r' r).trans ?_
      by_cases h : r = r'
      · subst h; rw [if_pos rfl]; simp only [nextConfigs, if_true]; rfl
      · simp only [nextConfigs, if_neg h]; rfl
  | deRegisterConfig r' c =>
    cases r' with
    | none => rfl
    | some r' =>
      cases c with
      | none => rfl
      | some c =>
        refine (at_deRegisterConfig _ r' c r).trans ?_
        by_cases h : r = r'
        · subst h; rw [if_pos rfl]; simp only [nextConfigs, if_true]; rfl
        · simp only [nextConfigs, if_neg h]; rfl
  | deRegisterConfigNamed r' n =>
    cases r' with
    | none => rfl
    | some r' =>
      refine (at_deRegisterConfigNamed _ _ r' n r).trans ?_
      by_cases h : r = r'
      · subst h; rw [if_pos rfl]; simp only [nextConfigs, if_true]; rfl
      · simp only [nextConfigs, if_neg h]; rfl
  | hasConfig r' c => cases r' <;> cases c <;> first | rfl | exact at_touch _ _ _
  | hasConfigNamed r' n => cases r' <;> first | rfl | exact at_touch _ _ _
  | getConfig r' n => cases r' <;> first | rfl | exact at_touch _ _ _
  | getConfigOf rn n => simp only [step, nextConfigs]; split <;> rfl
  | getConfigs r' =>
    cases r' with
    | none => rfl
    | some r' => simp only [step, nextConfigs]; split <;> rfl

/-- The invariant: nothing is registered twice. -/
structure Inv (w : World) : Prop where
  lists : ∀ k, (w.scene.list k).Nodup
  configs : ∀ r, (configsOf w r).Nodup

theorem inv_step {w : World} (hw : Inv w) (op : Op) : Inv (step w op).1 := by
  refine ⟨fun k => ?_, fun r => ?_⟩
  · rw [step_list]
    have h := hw.lists k
    unfold nextList
    split
    · split
      · exact register_nodup h _
      · exact h
    · split
      · rw [deRegister_eq h]; exact h.filter _
      · exact h
    · split
      · exact deRegisterNamed_nodup h _
      · exact h
    · exact h
  · rw [step_configs]
    have h := hw.configs r
    unfold nextConfigs
    split
    · split
      · exact register_nodup h _
      · exact h
    · split
      · exact regSome_nodup _ _ h
      · exact h
    · split
      · rw [deRegister_eq h]; exact h.filter _
      · exact h
    · split
      · exact deRegisterNamed_nodup h _
      · exact h
    · exact h

theorem inv_start (name : Kind → Nat → String) (cn tr : Nat → String) :
    Inv (World.start name cn tr) :=
  ⟨fun k => by cases k <;> exact List.nodup_nil, fun r => List.nodup_nil⟩

theorem inv_run {w : World} (hw : Inv w) (h : List Op) : Inv (run w h) := by
  induction h generalizing w with
  | nil => exact hw
  | cons op h ih => exact ih (inv_step hw op)

theorem run_snoc (w : World) (h : List Op) (op : Op) :
    run w (h ++ [op]) = (step (run w h) op).1 := by
  simp [run, List.foldl_append]

theorem mem_step {w : World} (hw : Inv w) (op : Op) (k : Kind) (e : Nat) :
    e ∈ (step w op).1.scene.list k ↔
      op = .register k (some e) ∨ (e ∈ w.scene.list k ∧ ¬ TakesOut w op k e) := by
  rw [step_list]
  have hl := hw.lists k
  unfold nextList TakesOut
  split
  · rename_i k' e'
    by_cases h : k = k'
    · subst h
      rw [if_pos rfl, mem_register]
      constructor
      · rintro (h | rfl)
        · exact Or.inr ⟨h, by simp⟩
        · exact Or.inl rfl
      · rintro (h | h)
        · simp at h; exact Or.inr h.symm
        · exact Or.inl h.1
    · rw [if_neg h]
      constructor
      · exact fun h => Or.inr ⟨h, by simp⟩
      · rintro (h' | h')
        · simp at h'; exact absurd h'.1.symm h
        · exact h'.1
  · rename_i k' e'
    by_cases h : k = k'
    · subst h
      rw [if_pos rfl, mem_deRegister hl]
      simp [eq_comm]
    · rw [if_neg h]
      simp [Ne.symm h]
  · rename_i k' n
    by_cases h : k = k'
    · subst h
      rw [if_pos rfl, mem_deRegisterNamed hl]
      simp
    · rw [if_neg h]
      simp [Ne.symm h]
  · rename_i h1 h2 h3
    constructor
    · intro h
      refine Or.inr ⟨h, ?_⟩
      rintro (h' | ⟨n, h', _⟩)
      · exact h2 _ _ h'
      · exact h3 _ _ h'
    · rintro (h | h)
      · exact absurd h (h1 _ _)
      · exact h.1

theorem mem_step_configs {w : World} (hw : Inv w) (op : Op) (r c : Nat) :
    c ∈ configsOf (step w op).1 r ↔
      PutsIn op r c ∨ (c ∈ configsOf w r ∧ ¬ TakesOutConfig w op r c) := by
  rw [step_configs]
  have hl := hw.configs r
  unfold nextConfigs TakesOutConfig PutsIn
  split
  · rename_i r' c'
    by_cases h : r = r'
    · subst h
      rw [if_pos rfl, mem_register]
      constructor
      · rintro (h | rfl)
        · exact Or.inr ⟨h, by simp⟩
        · exact Or.inl (Or.inl rfl)
      · rintro ((h | ⟨_, _, h, _⟩) | h)
        · simp at h; exact Or.inr h.symm
        · simp at h
        · exact Or.inl h.1
    · rw [if_neg h]
      constructor
      · exact fun h => Or.inr ⟨h, by simp⟩
      · rintro ((h' | ⟨_, _, h', _⟩) | h')
        · simp at h'; exact absurd h'.1.symm h
        · simp at h'
        · exact h'.1
  · rename_i r' cs
    by_cases h : r = r'
    · subst h
      rw [if_pos rfl, mem_regSome]
      constructor
      · rintro (h | ⟨ds, rest, h, hx⟩)
        · exact Or.inr ⟨h, by simp⟩
        · exact Or.inl (Or.inr ⟨ds, rest, by rw [h], hx⟩)
      · rintro ((h | ⟨ds, rest, h, hx⟩) | h)
        · simp at h
        · simp at h; exact Or.inr ⟨ds, rest, h, hx⟩
        · exact Or.inl h.1
    · rw [if_neg h]
      constructor
      · exact fun h => Or.inr ⟨h, by simp⟩
      · rintro ((h' | ⟨_, _, h', _⟩) | h')
        · simp at h'
        · simp at h'; exact absurd h'.1.symm h
        · exact h'.1
  · rename_i r' c'
    by_cases h : r = r'
    · subst h
      rw [if_pos rfl, mem_deRegister hl]
      simp [eq_comm]
    · rw [if_neg h]
      simp [Ne.symm h]
  · rename_i r' n
    by_cases h : r = r'
    · subst h
      rw [if_pos rfl, mem_deRegisterNamed hl]
      simp
    · rw [if_neg h]
      simp [Ne.symm h]
  · rename_i h1 h2 h3 h4
    constructor
    · intro h
      refine Or.inr ⟨h, ?_⟩
      rintro (h' | ⟨n, h', _⟩)
      · exact h3 _ _ h'
      · exact h4 _ _ h'
    · rintro ((h | ⟨_, _, h, _⟩) | h)
      · exact absurd h (h1 _ _)
      · exact absurd h (h2 _ _)
      · exact h.1

end Simox.Scn
