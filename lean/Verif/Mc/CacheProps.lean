import Verif.Mc.Model
import Mathlib.Tactic.Linarith

/-!
# Three-dimensional arrays and the cache: properties
-/

namespace Simox.Mc

variable {α : Type}

/-- An index of a cubic array. -/
def InRange (size : Int) (c : Index) : Prop :=
  0 ≤ c.1 ∧ c.1 < size ∧ 0 ≤ c.2.1 ∧ c.2.1 < size ∧ 0 ≤ c.2.2 ∧ c.2.2 < size

instance (size : Int) (c : Index) : Decidable (InRange size c) := by unfold InRange; infer_instance

/-- An array with all its elements. -/
def Array3D.WF (a : Array3D α) : Prop := 0 ≤ a.size ∧ (a.data.length : Int) = a.size * a.size * a.size

theorem offset_range {s i j k : Int} (hi : 0 ≤ i) (hi' : i < s) (hj : 0 ≤ j) (hj' : j < s) (hk : 0 ≤ k) (hk' : k < s) :
    0 ≤ i + s * j + s * s * k ∧ i + s * j + s * s * k < s * s * s := by
  have h0 : 0 ≤ s := by omega
  refine ⟨by positivity, ?_⟩
  have h1 : s * j ≤ s * (s - 1) := mul_le_mul_of_nonneg_left (by omega) h0
  have h2 : s * s * k ≤ s * s * (s - 1) := mul_le_mul_of_nonneg_left (by omega) (mul_nonneg h0 h0)
  nlinarith

theorem offset_inj {s i j k i' j' k' : Int} (h : InRange s (i, j, k)) (h' : InRange s (i', j', k'))
    (he : i + s * j + s * s * k = i' + s * j' + s * s * k') : i = i' ∧ j = j' ∧ k = k' := by
  obtain ⟨a1, a2, a3, a4, a5, a6⟩ := h
  obtain ⟨b1, b2, b3, b4, b5, b6⟩ := h'
  simp only at a1 a2 a3 a4 a5 a6 b1 b2 b3 b4 b5 b6
  have hs : 0 < s := by omega
  have e1 : i + s * (j + s * k) = i' + s * (j' + s * k') := by linarith
  have m1 := congrArg (· % s) e1
  simp only [Int.add_mul_emod_self_left] at m1
  rw [Int.emod_eq_of_lt a1 a2, Int.emod_eq_of_lt b1 b2] at m1
  subst m1
  have e2 : j + s * k = j' + s * k' := by
    have : s * (j + s * k) = s * (j' + s * k') := by linarith
    exact mul_left_cancel₀ hs.ne' this
  have m2 := congrArg (· % s) e2
  simp only [Int.add_mul_emod_self_left] at m2
  rw [Int.emod_eq_of_lt a3 a4, Int.emod_eq_of_lt b3 b4] at m2
  subst m2
  have e3 : s * k = s * k' := by linarith
  exact ⟨rfl, rfl, mul_left_cancel₀ hs.ne' e3⟩

theorem make_wf (dflt : α) {size : Int} (h : 0 ≤ size) : (Array3D.make dflt size).WF := by
  refine ⟨h, ?_⟩
  have : 0 ≤ size * size * size := by positivity
  simp [Array3D.make, this]

/-- Elements in range can be read and written, reading gives what was written last, and other elements keep their
values. -/
theorem array_get_set {a : Array3D α} (ha : a.WF) {c : Index} (hc : InRange a.size c) (v : α) :
    (∃ u, a.get c.1 c.2.1 c.2.2 = some u) ∧
    ∃ a', a.set c.1 c.2.1 c.2.2 v = some a' ∧ a'.WF ∧ a'.size = a.size ∧ a'.get c.1 c.2.1 c.2.2 = some v ∧
      ∀ d, InRange a.size d → d ≠ c → a'.get d.1 d.2.1 d.2.2 = a.get d.1 d.2.1 d.2.2 := by
  obtain ⟨i, j, k⟩ := c
  obtain ⟨h1, h2, h3, h4, h5, h6⟩ := hc
  simp only at h1 h2 h3 h4 h5 h6
  obtain ⟨r1, r2⟩ := offset_range h1 h2 h3 h4 h5 h6
  have hlen : (a.offset i j k).toNat < a.data.length := by
    have := ha.2
    simp only [Array3D.offset]; omega
  have hneg : ¬ a.offset i j k < 0 := by simp only [Array3D.offset]; omega
  refine ⟨⟨a.data[(a.offset i j k).toNat], ?_⟩, ⟨a.size, a.data.set (a.offset i j k).toNat v⟩, ?_, ?_, rfl, ?_, ?_⟩
  · simp only [Array3D.get]; rw [if_neg hneg, List.getElem?_eq_getElem hlen]
  · simp only [Array3D.set]; rw [if_neg (by push Not; exact ⟨by omega, hlen⟩)]
  · exact ⟨ha.1, by simpa using ha.2⟩
  · have : Array3D.offset (⟨a.size, a.data.set (a.offset i j k).toNat v⟩ : Array3D α) i j k = a.offset i j k := rfl
    simp only [Array3D.get, this]
    rw [if_neg hneg, List.getElem?_set_self hlen]
  · rintro ⟨i', j', k'⟩ hd hne
    have : Array3D.offset (⟨a.size, a.data.set (a.offset i j k).toNat v⟩ : Array3D α) i' j' k' = a.offset i' j' k' := rfl
    simp only [Array3D.get, this]
    by_cases hn : a.offset i' j' k' < 0
    · rw [if_pos hn, if_pos hn]
    · rw [if_neg hn, if_neg hn, List.getElem?_set_ne]
      intro he
      apply hne
      have : i + a.size * j + a.size * a.size * k = i' + a.size * j' + a.size * a.size * k' := by
        simp only [Array3D.offset] at he hneg hn; omega
      obtain ⟨e1, e2, e3⟩ := offset_inj ⟨h1, h2, h3, h4, h5, h6⟩ hd this
      rw [e1, e2, e3]

theorem make_get (dflt : α) {size : Int} {c : Index} (hc : InRange size c) :
    (Array3D.make dflt size).get c.1 c.2.1 c.2.2 = some dflt := by
  obtain ⟨h1, h2, h3, h4, h5, h6⟩ := hc
  obtain ⟨r1, r2⟩ := offset_range h1 h2 h3 h4 h5 h6
  have ho : (Array3D.make dflt size).offset c.1 c.2.1 c.2.2 = c.1 + size * c.2.1 + size * size * c.2.2 := rfl
  have hd : (Array3D.make dflt size).data = List.replicate (size * size * size).toNat dflt := rfl
  rw [Array3D.get, ho, hd, if_neg (by omega), List.getElem?_replicate, if_pos (by omega)]

/-! ## Arrays -/

/-- Operations on an array. -/
inductive ArrayOp (α : Type)
  | set (c : Index) (v : α)
  | get (c : Index)

def ArrayOp.index : ArrayOp α → Index
  | .set c _ => c
  | .get c => c

/-- The results of a sequence of operations: `some` of the value for reads, `none` for writes; nothing after an
exception. -/
def Array3D.run (a : Array3D α) : List (ArrayOp α) → Option (List (Option α))
  | [] => some []
  | .set c v :: l => (a.set c.1 c.2.1 c.2.2 v).bind fun a' => (a'.run l).map (none :: ·)
  | .get c :: l => (a.get c.1 c.2.1 c.2.2).bind fun v => (a.run l).map (some v :: ·)

/-- What one expects: a function from indices to values. -/
def runSpec (f : Index → α) : List (ArrayOp α) → List (Option α)
  | [] => []
  | .set c v :: l => none :: runSpec (fun d => if d = c then v else f d) l
  | .get c :: l => some (f c) :: runSpec f l

theorem run_refines (f : Index → α) : ∀ (l : List (ArrayOp α)) (a : Array3D α), a.WF →
    (∀ c, InRange a.size c → a.get c.1 c.2.1 c.2.2 = some (f c)) → (∀ o ∈ l, InRange a.size o.index) →
    a.run l = some (runSpec f l)
  | [], _, _, _, _ => rfl
  | .set c v :: l, a, ha, hf, hl => by
    have hc : InRange a.size c := hl _ List.mem_cons_self
    obtain ⟨-, a', h1, h2, h3, h4, h5⟩ := array_get_set ha hc v
    simp only [Array3D.run, runSpec, h1, Option.bind_some]
    rw [run_refines (fun d => if d = c then v else f d) l a' h2 ?_ ?_]
    · rfl
    · intro d hd
      rw [h3] at hd
      by_cases he : d = c
      · subst he; simp only [if_true]; exact h4
      · simp only [if_neg he]; rw [h5 d hd he]; exact hf d hd
    · intro o ho; rw [h3]; exact hl o (List.mem_cons_of_mem _ ho)
  | .get c :: l, a, ha, hf, hl => by
    have hc : InRange a.size c := hl _ List.mem_cons_self
    simp only [Array3D.run, runSpec, hf c hc, Option.bind_some]
    rw [run_refines f l a ha hf fun o ho => hl o (List.mem_cons_of_mem _ ho)]
    rfl

/-- A new array behaves as a function that is the default value everywhere: whatever is written and read at indices
in range, nothing throws and every read gives what was last written there. -/
theorem C84_array (dflt : α) {size : Int} (h : 0 ≤ size) (l : List (ArrayOp α)) (hl : ∀ o ∈ l, InRange size o.index) :
    (Array3D.make dflt size).run l = some (runSpec (fun _ => dflt) l) :=
  run_refines _ l _ (make_wf dflt h) (fun _ hc => make_get dflt hc) hl

/-- Indices out of range do not always throw: they may be those of another element. -/
theorem C84_array_alias_false :
    ∃ c : Index, ¬ InRange 3 c ∧ (((Array3D.make 0 3).set 0 1 0 7).bind fun a => a.get c.1 c.2.1 c.2.2) = some 7 :=
  ⟨(3, 0, 0), by decide, by decide⟩

/-! ## The cache -/

/-- A program that asks for values of the grid and goes on with the answers. -/
inductive Client (K β : Type)
  | ret (b : β)
  | ask (c : Index) (k : K → Client K β)

variable {K β : Type}

/-- The program run with the cache: its result and the calls of `getData`. -/
def Client.run (getData : Index → K) : Client K β → Cache K → Option (β × List Index)
  | .ret b, _ => some (b, [])
  | .ask c k, s =>
    match s.get getData c.1 c.2.1 c.2.2 with
    | none => none
    | some (v, s', calls) => ((k v).run getData s').map fun r => (r.1, calls ++ r.2)

/-- The program run with the function itself: its result and the indices asked for. -/
def Client.eval (getData : Index → K) : Client K β → β × List Index
  | .ret b => (b, [])
  | .ask c k => (((k (getData c)).eval getData).1, c :: ((k (getData c)).eval getData).2)

def Cache.Inv (getData : Index → K) (size : Int) (s : Cache K) (seen : List Index) : Prop :=
  s.data.WF ∧ s.valid.WF ∧ s.data.size = size ∧ s.valid.size = size ∧
    ∀ c, InRange size c → s.valid.get c.1 c.2.1 c.2.2 = some (decide (c ∈ seen)) ∧
      (c ∈ seen → s.data.get c.1 c.2.1 c.2.2 = some (getData c))

theorem client_run (getData : Index → K) (size : Int) : ∀ (p : Client K β) (s : Cache K) (seen : List Index),
    s.Inv getData size seen → (∀ c ∈ (p.eval getData).2, InRange size c) →
    ∃ calls, p.run getData s = some ((p.eval getData).1, calls) ∧ calls.Nodup ∧ (∀ c ∈ calls, c ∉ seen) ∧
      (∀ c ∈ calls, c ∈ (p.eval getData).2)
  | .ret b, s, seen, _, _ => ⟨[], rfl, List.nodup_nil, by simp, by simp⟩
  | .ask c k, s, seen, ⟨w1, w2, w3, w4, hv⟩, hr => by
    have hc : InRange size c := hr c (by simp [Client.eval])
    have hr' : ∀ d ∈ ((k (getData c)).eval getData).2, InRange size d := fun d hd => hr d (by
      simp only [Client.eval, List.mem_cons]; exact Or.inr hd)
    obtain ⟨v1, v2⟩ := hv c hc
    by_cases hs : c ∈ seen
    · have hg : s.get getData c.1 c.2.1 c.2.2 = some (getData c, s, []) := by
        simp only [Cache.get, v1, hs, decide_true, v2 hs]
      obtain ⟨calls, e1, e2, e3, e4⟩ := client_run getData size (k (getData c)) s seen ⟨w1, w2, w3, w4, hv⟩ hr'
      refine ⟨calls, ?_, e2, e3, ?_⟩
      · simp only [Client.run, hg, e1, Client.eval, Option.map_some, List.nil_append]
      · intro d hd; simp only [Client.eval, List.mem_cons]; exact Or.inr (e4 d hd)
    · obtain ⟨-, d', d1, d2, d3, d4, d5⟩ := array_get_set w1 (w3 ▸ hc) (getData c)
      obtain ⟨-, u', u1, u2, u3, u4, u5⟩ := array_get_set w2 (w4 ▸ hc) true
      have hg : s.get getData c.1 c.2.1 c.2.2 = some (getData c, ⟨d', u'⟩, [c]) := by
        simp only [Cache.get, v1, hs, decide_false, Prod.mk.eta, d1, u1]
      have hinv : Cache.Inv getData size ⟨d', u'⟩ (c :: seen) := by
        refine ⟨d2, u2, d3.trans w3, u3.trans w4, ?_⟩
        intro d hd
        by_cases he : d = c
        · subst he
          exact ⟨by simp [u4], fun _ => d4⟩
        · simp only [List.mem_cons, he, false_or]
          rw [u5 d (w4 ▸ hd) he, d5 d (w3 ▸ hd) he]
          exact hv d hd
      obtain ⟨calls, e1, e2, e3, e4⟩ := client_run getData size (k (getData c)) ⟨d', u'⟩ (c :: seen) hinv hr'
      refine ⟨c :: calls, ?_, ?_, ?_, ?_⟩
      · simp only [Client.run, hg, e1, Client.eval, Option.map_some, List.singleton_append]
      · rw [List.nodup_cons]; exact ⟨fun h => e3 c h (by simp), e2⟩
      · intro d hd
        rcases List.mem_cons.1 hd with h | h
        · rw [h]; exact hs
        · exact fun hm => e3 d h (List.mem_cons_of_mem _ hm)
      · intro d hd
        simp only [Client.eval, List.mem_cons]
        rcases List.mem_cons.1 hd with h | h
        · exact Or.inl h
        · exact Or.inr (e4 d h)

/-- `GridCacheFloat3`: whatever a program asks for, adaptively and in any order, at indices in range, it gets the same
result as from `getData` itself, without an exception; `getData` is called only for indices asked for and never twice
for the same one. -/
theorem C84_cache (getData : Index → K) (zero : K) {size : Int} (h : 0 ≤ size) (p : Client K β)
    (hr : ∀ c ∈ (p.eval getData).2, InRange size c) :
    ∃ calls, p.run getData (Cache.make zero size) = some ((p.eval getData).1, calls) ∧ calls.Nodup ∧
      ∀ c ∈ calls, c ∈ (p.eval getData).2 := by
  obtain ⟨calls, e1, e2, -, e4⟩ := client_run getData size p (Cache.make zero size) [] ⟨make_wf _ h, make_wf _ h, rfl, rfl,
    fun c hc => ⟨by simp only [Cache.make]; rw [make_get _ hc]; rfl, by simp⟩⟩ hr
  exact ⟨calls, e1, e2, e4⟩

/-- The hypotheses are met: asking twice for the same value calls `getData` once. -/
example : Client.run (fun c => c.1 + 10 * c.2.1) (.ask (1, 2, 0) fun a => .ask (1, 2, 0) fun b => .ret (a + b))
    (Cache.make 0 3) = some ((42 : Int), [(1, 2, 0)]) := by decide

end Simox.Mc
