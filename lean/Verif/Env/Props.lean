/-
Properties C37 (data file lookup) and C43 (parameters).
-/
import Verif.Env.Model

namespace Simox.Env

/-! ### Helper lemmas -/

theorem usable_iff (fs : FS) (p : String) : fs.usable p = true ↔ fs.status p = .regular := by
  unfold FS.usable
  cases fs.status p <;> simp

theorem acceptable_iff (fs : FS) (p : String) : fs.acceptable p = true ↔
    fs.status p = .directory ∨ (fs.status p ≠ .error ∧ fs.isLink p = some true) := by
  unfold FS.acceptable
  cases h : fs.status p <;> simp <;> (split <;> simp_all)

theorem search_some (c : Config) (fs : FS) (fn f : String) (l : List String) :
    search c fs fn l = some f ↔ ∃ a p b, l = a ++ p :: b ∧ f = c.join p fn ∧
      fs.status (c.join p fn) = .regular ∧ ∀ q ∈ a, fs.status (c.join q fn) ≠ .regular := by
  induction l with
  | nil => simp [search]
  | cons x xs ih =>
    unfold search
    by_cases hx : fs.status (c.join x fn) = .regular
    · rw [if_pos ((usable_iff _ _).2 hx)]
      constructor
      · intro h; cases h; exact ⟨[], x, xs, rfl, rfl, hx, by simp⟩
      · rintro ⟨a, p, b, h, rfl, hp, ha⟩
        cases a with
        | nil => simp at h; rw [h.1]
        | cons y ys => simp at h; exact absurd (h.1 ▸ hx) (ha y (by simp))
    · rw [if_neg (fun e => hx ((usable_iff _ _).1 e)), ih]
      constructor
      · rintro ⟨a, p, b, h, hf, hp, ha⟩
        refine ⟨x :: a, p, b, by simp [h], hf, hp, ?_⟩
        intro q hq
        rcases List.mem_cons.1 hq with rfl | hq
        · exact hx
        · exact ha q hq
      · rintro ⟨a, p, b, h, hf, hp, ha⟩
        cases a with
        | nil => simp at h; exact absurd (h.1 ▸ hp) hx
        | cons y ys => simp at h; exact ⟨ys, p, b, h.2, hf, hp, fun q hq => ha q (by simp [hq])⟩

theorem search_none (c : Config) (fs : FS) (fn : String) (l : List String) :
    search c fs fn l = none ↔ ∀ p ∈ l, fs.status (c.join p fn) ≠ .regular := by
  induction l with
  | nil => simp [search]
  | cons x xs ih =>
    unfold search
    by_cases hx : fs.status (c.join x fn) = .regular
    · rw [if_pos ((usable_iff _ _).2 hx)]; simp [hx]
    · rw [if_neg (fun e => hx ((usable_iff _ _).1 e)), ih]; simp [hx]

/-- A step that only appends acceptable paths. -/
def Ext (fs : FS) (s s' : State) : Prop :=
  ∃ l, s'.dataPaths = s.dataPaths ++ l ∧ (∀ p ∈ l, fs.acceptable p = true) ∧
    s'.keyValues = s.keyValues ∧ s'.pathInitialized = s.pathInitialized

theorem Ext.refl (fs : FS) (s : State) : Ext fs s s := ⟨[], by simp, by simp, rfl, rfl⟩

theorem Ext.trans {fs : FS} {a b c : State} (h1 : Ext fs a b) (h2 : Ext fs b c) : Ext fs a c := by
  obtain ⟨l1, e1, p1, k1, i1⟩ := h1
  obtain ⟨l2, e2, p2, k2, i2⟩ := h2
  refine ⟨l1 ++ l2, by rw [e2, e1, List.append_assoc], ?_, k2.trans k1, i2.trans i1⟩
  intro p hp
  rcases List.mem_append.1 hp with h | h
  · exact p1 p h
  · exact p2 p h

theorem ext_add (fs : FS) (s : State) (p : String) : Ext fs s (addDataPath fs s p).1 := by
  unfold addDataPath
  by_cases h : fs.acceptable p = true
  · rw [if_pos h]; exact ⟨[p], rfl, by simpa using h, rfl, rfl⟩
  · rw [if_neg h]; exact Ext.refl _ _

theorem ext_tryEnv (fs : FS) (v : Option String) (sb : State × Bool) :
    Ext fs sb.1 (tryEnv fs v sb).1 := by
  cases v with
  | none => exact Ext.refl _ _
  | some p => exact ext_add fs _ p

theorem ext_tryIfNot (fs : FS) (p : String) (sb : State × Bool) :
    Ext fs sb.1 (tryIfNot fs p sb).1 := by
  unfold tryIfNot
  split
  · exact Ext.refl _ _
  · exact ext_add fs _ p

theorem ext_tryOr (fs : FS) (p : String) (sb : State × Bool) : Ext fs sb.1 (tryOr fs p sb).1 :=
  ext_add fs _ p

theorem ext_tryMacro (fs : FS) (v : Option String) (sb : State × Bool) :
    Ext fs sb.1 (tryMacro fs v sb).1 := by
  cases v with
  | none => exact Ext.refl _ _
  | some p => exact ext_tryOr fs p _

theorem ext_trySimoxDir (fs : FS) (v : Option String) (sb : State × Bool) :
    Ext fs sb.1 (trySimoxDir fs v sb).1 := by
  unfold trySimoxDir
  split
  · exact Ext.refl _ _
  · cases v with
    | none => exact Ext.refl _ _
    | some p =>
      exact ((ext_add fs sb.1 (p ++ "/data")).trans (ext_tryIfNot fs _ _)).trans
        (ext_tryIfNot fs _ _)

theorem ext_tryCwd (fs : FS) (c : Config) (sb : State × Bool) :
    Ext fs sb.1 (tryCwd fs c sb).1 := by
  unfold tryCwd
  split
  · exact Ext.refl _ _
  · exact (((ext_tryOr fs _ sb).trans (ext_tryOr fs _ _)).trans (ext_tryOr fs _ _)).trans
      (ext_tryOr fs _ _)

theorem ext_initBody (c : Config) (fs : FS) (s : State) :
    Ext fs { s with pathInitialized := true } (initBody c fs s) :=
  (((((((((Ext.refl fs _).trans (ext_tryEnv fs _ (_, false))).trans (ext_tryEnv fs _ _)).trans
    (ext_trySimoxDir fs _ _)).trans (ext_tryMacro fs _ _)).trans (ext_tryMacro fs _ _)).trans
    (ext_tryMacro fs _ _)).trans (ext_tryIfNot fs _ _)).trans (ext_tryIfNot fs _ _)).trans
    (ext_tryCwd fs c _)

theorem addDataPaths_spec (fs : FS) : ∀ (ps : List String) (s : State),
    addDataPaths fs ps s = { s with dataPaths := s.dataPaths ++ ps.filter fs.acceptable } := by
  intro ps
  induction ps with
  | nil => intro s; simp [addDataPaths]
  | cons p ps ih =>
    intro s
    unfold addDataPaths
    rw [ih]
    unfold addDataPath
    by_cases h : fs.acceptable p = true
    · simp [h]
    · simp [h]

theorem processKeys_paths (vals : String → List String) : ∀ (ks : List String) (s : State),
    (processKeys vals ks s).dataPaths = s.dataPaths ∧
      (processKeys vals ks s).pathInitialized = s.pathInitialized := by
  intro ks
  induction ks with
  | nil => intro s; exact ⟨rfl, rfl⟩
  | cons k ks ih =>
    intro s
    unfold processKeys
    cases vals k with
    | nil => exact ih s
    | cons v vs => exact ih _

theorem ensured_eq (c : Config) (fs : FS) (s : State) :
    (if s.pathInitialized then s else init c fs s) = init c fs s := by
  unfold init
  split <;> rfl

theorem init_cases (c : Config) (fs : FS) (s : State) :
    (s.pathInitialized = true ∧ init c fs s = s) ∨
    (s.pathInitialized = false ∧ init c fs s = initBody c fs s) := by
  unfold init
  cases s.pathInitialized <;> simp

theorem lookup_state (c : Config) (fs : FS) (s : State) (fn : String) :
    (getDataFileAbsolute c fs s fn).1 = init c fs s := by
  unfold getDataFileAbsolute
  simp only [ensured_eq]
  split
  · rfl
  · split <;> rfl

/-! ### C37 -/

/-- C37: looking up a data file.  With `paths` the data paths afterwards, the call gives the name
itself if that is a regular file, otherwise the name below the first data path where it is a regular
file; otherwise, and only then, it fails and leaves the name unchanged.  Directories, missing files
and files that cannot be examined are passed over. -/
theorem C37_lookup (c : Config) (fs : FS) (s : State) (fn : String) :
    let r := getDataFileAbsolute c fs s fn
    let paths := r.1.dataPaths
    (fs.status fn = .regular → r.2 = (true, fn)) ∧
    (fs.status fn ≠ .regular → ∀ a p b, paths = a ++ p :: b →
      fs.status (c.join p fn) = .regular → (∀ q ∈ a, fs.status (c.join q fn) ≠ .regular) →
      r.2 = (true, c.join p fn)) ∧
    (fs.status fn ≠ .regular → (∀ p ∈ paths, fs.status (c.join p fn) ≠ .regular) →
      r.2 = (false, fn)) ∧
    (r.2.1 = true → fs.status r.2.2 = .regular) ∧
    (getDataPaths c fs s).2 = paths := by
  simp only [lookup_state]
  have hp : (getDataPaths c fs s).2 = (init c fs s).dataPaths := by
    unfold getDataPaths
    simp only [ensured_eq]
  have hval : (getDataFileAbsolute c fs s fn).2 =
      if fs.usable fn then (true, fn) else
        match search c fs fn (init c fs s).dataPaths with
        | some f => (true, f)
        | none => (false, fn) := by
    unfold getDataFileAbsolute
    simp only [ensured_eq]
    split
    · rfl
    · cases search c fs fn (init c fs s).dataPaths <;> rfl
  rw [hval, hp]
  refine ⟨?_, ?_, ?_, ?_, rfl⟩
  · intro h; rw [if_pos ((usable_iff _ _).2 h)]
  · intro h a p b e h1 h2
    rw [if_neg (fun e => h ((usable_iff _ _).1 e)),
      (search_some c fs fn (c.join p fn) _).2 ⟨a, p, b, e, rfl, h1, h2⟩]
  · intro h h1
    rw [if_neg (fun e => h ((usable_iff _ _).1 e)), (search_none c fs fn _).2 h1]
  · by_cases h : fs.status fn = .regular
    · rw [if_pos ((usable_iff _ _).2 h)]; intro _; exact h
    · rw [if_neg (fun e => h ((usable_iff _ _).1 e))]
      cases e : search c fs fn (init c fs s).dataPaths with
      | none => simp
      | some f =>
        intro _
        obtain ⟨a, p, b, _, hf, h1, _⟩ := (search_some c fs fn f _).1 e
        simp only
        rw [hf]
        exact h1

/-- C37: `addDataPath` appends a path exactly if it is a directory or a symbolic link (that can be
examined), reports this, and changes nothing else. -/
theorem C37_add (fs : FS) (s : State) (p : String) :
    ((fs.status p = .directory ∨ (fs.status p ≠ .error ∧ fs.isLink p = some true)) →
      addDataPath fs s p = ({ s with dataPaths := s.dataPaths ++ [p] }, true)) ∧
    (¬ (fs.status p = .directory ∨ (fs.status p ≠ .error ∧ fs.isLink p = some true)) →
      addDataPath fs s p = (s, false)) := by
  rw [← acceptable_iff]
  exact ⟨fun h => if_pos h, fun h => if_neg h⟩

/-- C37: no call ever removes or reorders data paths; new ones go to the end and were directories or
symbolic links when they were added. -/
theorem C37_paths_grow (c : Config) (es : List (FS × Op)) (s : State) :
    ∃ l, (run c es s).dataPaths = s.dataPaths ++ l ∧
      ∀ p ∈ l, ∃ e ∈ es, e.1.status p = .directory ∨
        (e.1.status p ≠ .error ∧ e.1.isLink p = some true) := by
  induction es generalizing s with
  | nil => exact ⟨[], by simp [run], by simp⟩
  | cons e es ih =>
    have hinit : ∃ l, (init c e.1 s).dataPaths = s.dataPaths ++ l ∧
        ∀ p ∈ l, e.1.acceptable p = true := by
      rcases init_cases c e.1 s with ⟨_, h⟩ | ⟨_, h⟩
      · rw [h]; exact ⟨[], by simp, by simp⟩
      · rw [h]
        obtain ⟨l, h1, h2, _, _⟩ := ext_initBody c e.1 s
        exact ⟨l, h1, h2⟩
    have hstep : ∃ l, (step c e.1 s e.2).dataPaths = s.dataPaths ++ l ∧
        ∀ p ∈ l, e.1.acceptable p = true := by
      obtain ⟨fs, op⟩ := e
      cases op with
      | add p =>
        obtain ⟨l, h1, h2, _, _⟩ := ext_add fs s p
        exact ⟨l, h1, h2⟩
      | lookup fn => simp only [step, lookup_state]; exact hinit
      | list => simp only [step, getDataPaths, ensured_eq]; exact hinit
      | set k v => exact ⟨[], by simp [step, addKeyValuePair], by simp⟩
      | commandLine ps ks vs =>
        obtain ⟨l, h1, h2⟩ := hinit
        refine ⟨l ++ ps.filter fs.acceptable, ?_, ?_⟩
        · simp only [step, processCommandLine, ensured_eq]
          rw [(processKeys_paths vs ks _).1, addDataPaths_spec]
          simp only
          rw [h1, List.append_assoc]
        · intro p hp
          rcases List.mem_append.1 hp with h | h
          · exact h2 p h
          · exact (List.mem_filter.1 h).2
    obtain ⟨l1, e1, p1⟩ := hstep
    obtain ⟨l2, e2, p2⟩ := ih (step c e.1 s e.2)
    refine ⟨l1 ++ l2, by simp only [run]; rw [e2, e1, List.append_assoc], ?_⟩
    intro p hp
    rcases List.mem_append.1 hp with h | h
    · exact ⟨e, by simp, (acceptable_iff _ _).1 (p1 p h)⟩
    · obtain ⟨e', he', h'⟩ := p2 p h
      exact ⟨e', by simp [he'], h'⟩

/-- C37: the default paths are determined by the first lookup, listing or command line and by no later
one: once initialized, lookups and listings leave the state alone, and `addDataPath` adds just the
one path. -/
theorem C37_init_once (c : Config) (fs : FS) (s : State) (op : Op) :
    (s.pathInitialized = true → (∀ fn, op = .lookup fn → step c fs s op = s) ∧
      (op = .list → step c fs s op = s) ∧ (step c fs s op).pathInitialized = true) ∧
    ((step c fs s op).pathInitialized = false ↔
      s.pathInitialized = false ∧ ((∃ p, op = .add p) ∨ ∃ k v, op = .set k v)) := by
  have hi : (init c fs s).pathInitialized = true := by
    rcases init_cases c fs s with ⟨h, e⟩ | ⟨_, e⟩
    · rw [e]; exact h
    · rw [e]
      obtain ⟨_, _, _, _, h⟩ := ext_initBody c fs s
      rw [h]
  have hsame : s.pathInitialized = true → init c fs s = s := by
    intro h
    rcases init_cases c fs s with ⟨_, e⟩ | ⟨h', _⟩
    · exact e
    · rw [h] at h'; exact absurd h' (by simp)
  have hadd : ∀ p, (addDataPath fs s p).1.pathInitialized = s.pathInitialized := by
    intro p
    obtain ⟨_, _, _, _, h⟩ := ext_add fs s p
    exact h
  have hcl : ∀ ps ks vs, (step c fs s (.commandLine ps ks vs)).pathInitialized = true := by
    intro ps ks vs
    simp only [step, processCommandLine, ensured_eq]
    rw [(processKeys_paths vs ks _).2, addDataPaths_spec]
    exact hi
  cases op with
  | add p =>
    refine ⟨fun h => ⟨by simp, by simp, by simp only [step]; rw [hadd]; exact h⟩, ?_⟩
    simp [step, hadd]
  | lookup fn =>
    simp only [step, lookup_state]
    exact ⟨fun h => ⟨fun _ _ => hsame h, by simp, hi⟩, by simp [hi]⟩
  | list =>
    simp only [step, getDataPaths, ensured_eq]
    exact ⟨fun h => ⟨by simp, fun _ => hsame h, hi⟩, by simp [hi]⟩
  | set k v =>
    refine ⟨fun h => ⟨by simp, by simp, h⟩, ?_⟩
    simp [step, addKeyValuePair]
  | commandLine ps ks vs =>
    refine ⟨fun _ => ⟨by simp, by simp, hcl ps ks vs⟩, ?_⟩
    simp [hcl]

/-- C37: paths added before the first lookup precede the default paths, paths added afterwards
follow them. -/
theorem C37_order (c : Config) (fs : FS) (p q fn : String)
    (hp : fs.status p = .directory) (hq : fs.status q = .directory) :
    ∃ defaults, (run c [(fs, .lookup fn)] start).dataPaths = defaults ∧
      (run c [(fs, .add p), (fs, .lookup fn), (fs, .add q)] start).dataPaths =
        p :: defaults ++ [q] := by
  -- the body of `init` treats the existing paths as a prefix
  have key : ∀ (s : State), s.pathInitialized = false →
      (initBody c fs s).dataPaths = s.dataPaths ++ (initBody c fs { s with dataPaths := [] }).dataPaths ∧
      True := by
    intro s _
    refine ⟨?_, trivial⟩
    -- two runs side by side: equal flags, paths differing by the prefix
    let R : State × Bool → State × Bool → Prop := fun x y =>
      x.2 = y.2 ∧ x.1.dataPaths = s.dataPaths ++ y.1.dataPaths
    have rAdd : ∀ (x y : State × Bool) (p : String), R x y →
        R (addDataPath fs x.1 p) (addDataPath fs y.1 p) := by
      intro x y p h
      unfold addDataPath
      by_cases ha : fs.acceptable p = true
      · simp only [if_pos ha]; exact ⟨rfl, by simp [h.2]⟩
      · simp only [if_neg ha]; exact ⟨rfl, h.2⟩
    have rEnv : ∀ (v : Option String) (x y : State × Bool), R x y →
        R (tryEnv fs v x) (tryEnv fs v y) := by
      intro v x y h
      cases v with
      | none => exact h
      | some p => exact rAdd x y p h
    have rIf : ∀ (p : String) (x y : State × Bool), R x y →
        R (tryIfNot fs p x) (tryIfNot fs p y) := by
      intro p x y h
      unfold tryIfNot
      rw [h.1]
      split
      · exact h
      · exact rAdd x y p h
    have rOr : ∀ (p : String) (x y : State × Bool), R x y → R (tryOr fs p x) (tryOr fs p y) := by
      intro p x y h
      have := rAdd x y p h
      exact ⟨by simp only [tryOr]; rw [h.1, this.1], this.2⟩
    have rMacro : ∀ (v : Option String) (x y : State × Bool), R x y →
        R (tryMacro fs v x) (tryMacro fs v y) := by
      intro v x y h
      cases v with
      | none => exact h
      | some p => exact rOr p x y h
    have rDir : ∀ (v : Option String) (x y : State × Bool), R x y →
        R (trySimoxDir fs v x) (trySimoxDir fs v y) := by
      intro v x y h
      unfold trySimoxDir
      rw [h.1]
      split
      · exact h
      · cases v with
        | none => exact h
        | some p => exact rIf _ _ _ (rIf _ _ _ (rAdd x y _ h))
    have rCwd : ∀ (x y : State × Bool), R x y → R (tryCwd fs c x) (tryCwd fs c y) := by
      intro x y h
      unfold tryCwd
      rw [h.1]
      split
      · exact h
      · exact rOr _ _ _ (rOr _ _ _ (rOr _ _ _ (rOr _ _ _ h)))
    have h0 : R ({ s with pathInitialized := true }, false)
        ({ dataPaths := [], keyValues := s.keyValues, pathInitialized := true }, false) :=
      ⟨rfl, by simp⟩
    exact (rCwd _ _ (rIf _ _ _ (rIf _ _ _ (rMacro _ _ _ (rMacro _ _ _ (rMacro _ _ _
      (rDir _ _ _ (rEnv _ _ _ (rEnv _ _ _ h0))))))))).2
  refine ⟨_, rfl, ?_⟩
  have ap : fs.acceptable p = true := (acceptable_iff _ _).2 (Or.inl hp)
  have aq : fs.acceptable q = true := (acceptable_iff _ _).2 (Or.inl hq)
  have h1 : (addDataPath fs start p).1 = { start with dataPaths := [p] } := by
    unfold addDataPath
    rw [if_pos ap]
    rfl
  simp only [run, step, lookup_state, h1]
  unfold addDataPath
  rw [if_pos aq]
  have h2 : init c fs { start with dataPaths := [p] } =
      initBody c fs { start with dataPaths := [p] } := rfl
  have h3 : init c fs start = initBody c fs start := rfl
  rw [h2, h3]
  simp only
  rw [(key { start with dataPaths := [p] } rfl).1]
  rfl

/-- C37: a valid data path in the environment variable `VIRTUAL_ROBOT_DATA_PATH`, or in
`SIMOX_DATA_PATH` if the former is not set, is searched, and then no fallback path is. -/
theorem C37_env (c : Config) (fs : FS) (s : State) (p : String) (hs : s.pathInitialized = false)
    (hp : fs.status p = .directory)
    (hm : c.simoxDataPath = none ∧ c.virtualRobotDataPath = none ∧ c.virtualRobotSrcDataPath = none) :
    (c.getenv "SIMOX_DATA_PATH" = none → c.getenv "VIRTUAL_ROBOT_DATA_PATH" = some p →
      (init c fs s).dataPaths = s.dataPaths ++ [p]) ∧
    (c.getenv "SIMOX_DATA_PATH" = some p → c.getenv "VIRTUAL_ROBOT_DATA_PATH" = none →
      (init c fs s).dataPaths = s.dataPaths ++ [p]) := by
  have ap : fs.acceptable p = true := (acceptable_iff _ _).2 (Or.inl hp)
  have hi : init c fs s = initBody c fs s := by
    rcases init_cases c fs s with ⟨h, _⟩ | ⟨_, e⟩
    · rw [hs] at h; exact absurd h (by simp)
    · exact e
  have hadd : ∀ t, addDataPath fs t p = ({ t with dataPaths := t.dataPaths ++ [p] }, true) :=
    fun t => if_pos ap
  rw [hi]
  constructor
  · intro h1 h2
    simp [initBody, h1, h2, hm, tryEnv, hadd, trySimoxDir, tryMacro, tryIfNot, tryCwd]
  · intro h1 h2
    simp [initBody, h1, h2, hm, tryEnv, hadd, trySimoxDir, tryMacro, tryIfNot, tryCwd]

/-- C37 (surprise): a valid `SIMOX_DATA_PATH` together with an invalid `VIRTUAL_ROBOT_DATA_PATH` does
not count as found, so the fallback paths are searched as well. -/
theorem C37_env_overwritten :
    ∃ (c : Config) (fs : FS), c.getenv "SIMOX_DATA_PATH" = some "/good" ∧
      fs.status "/good" = .directory ∧ (init c fs start).dataPaths = ["/good", "/usr/local/data"] := by
  refine ⟨{ getenv := fun v => if v = "SIMOX_DATA_PATH" then some "/good" else
      if v = "VIRTUAL_ROBOT_DATA_PATH" then some "/bad" else none
            simoxDataPath := none, virtualRobotDataPath := none, virtualRobotSrcDataPath := none,
            cwd := "", join := fun a b => a ++ "/" ++ b },
    { status := fun p => if p = "/bad" then .missing else .directory, isLink := fun _ => some false },
    ?_, ?_, ?_⟩
  · simp
  · simp
  · simp [init, start, initBody, tryEnv, addDataPath, FS.acceptable, trySimoxDir, tryMacro, tryIfNot,
      tryCwd]

/-- C37: a path given as symbolic link is accepted even if the link leads nowhere. -/
theorem C37_dangling_link (fs : FS) (s : State) (p : String) (h1 : fs.status p = .missing)
    (h2 : fs.isLink p = some true) : (addDataPath fs s p).2 = true := by
  unfold addDataPath
  rw [if_pos ((acceptable_iff _ _).2 (Or.inr ⟨by rw [h1]; decide, h2⟩))]

/-! ### C43 -/

theorem find_put (k v k' : String) (l : List (String × String)) :
    find k' (put k v l) = if k' = k then some v else find k' l := by
  induction l with
  | nil =>
    by_cases h : k' = k
    · simp [put, find, h]
    · simp [put, find, h, Ne.symm h]
  | cons e es ih =>
    unfold put
    by_cases h1 : e.1 = k
    · rw [if_pos h1]
      by_cases h : k' = k
      · simp [find, h]
      · simp [find, h, Ne.symm h, h1]
    · rw [if_neg h1]
      by_cases h2 : e.1 = k'
      · have : ¬ k' = k := fun e' => h1 (h2.trans e')
        simp [find, h2, this]
      · simp only [find, if_neg h2]
        exact ih

/-- The value a sequence of `addKeyValuePair` calls leaves for a key. -/
def lastWrite (k : String) : List (String × String) → Option String
  | [] => none
  | e :: es => match lastWrite k es with
    | some v => some v
    | none => if e.1 = k then some e.2 else none

/-- C43: after any sequence of `addKeyValuePair` calls, `hasValue` tells whether the key was written,
`getValue` and `checkParameter` give the value written last; without any, the empty string and the
given default. -/
theorem C43_values (ws : List (String × String)) (k std : String) :
    let s := ws.foldl (fun s w => addKeyValuePair s w.1 w.2) start
    (∀ v, lastWrite k ws = some v →
      hasValue s k = true ∧ getValue s k = v ∧ checkParameter s k std = v) ∧
    (lastWrite k ws = none →
      hasValue s k = false ∧ getValue s k = "" ∧ checkParameter s k std = std) ∧
    s.dataPaths = [] ∧ s.pathInitialized = false := by
  have key : ∀ (ws : List (String × String)) (s0 : State),
      let s := ws.foldl (fun s w => addKeyValuePair s w.1 w.2) s0
      find k s.keyValues = (lastWrite k ws).or (find k s0.keyValues) ∧
        s.dataPaths = s0.dataPaths ∧ s.pathInitialized = s0.pathInitialized := by
    intro ws
    induction ws with
    | nil => intro s0; simp [lastWrite]
    | cons w ws ih =>
      intro s0
      simp only [List.foldl_cons]
      obtain ⟨h1, h2, h3⟩ := ih (addKeyValuePair s0 w.1 w.2)
      refine ⟨?_, h2, h3⟩
      rw [h1]
      simp only [addKeyValuePair, find_put, lastWrite]
      cases lastWrite k ws with
      | some v => simp
      | none =>
        by_cases h : w.1 = k
        · simp [h]
        · simp [h, Ne.symm h]
  obtain ⟨h1, h2, h3⟩ := key ws start
  simp only at h1 h2 h3 ⊢
  have hs : find k start.keyValues = none := rfl
  rw [hs, Option.or_none] at h1
  refine ⟨?_, ?_, h2, h3⟩
  · intro v hv
    rw [hv] at h1
    simp [hasValue, getValue, checkParameter, h1]
  · intro hv
    rw [hv] at h1
    simp [hasValue, getValue, checkParameter, h1]

/-- C43: a command line stores for every known key that it mentions the first value given, and keeps
the values of all other keys. -/
theorem C43_command_line (c : Config) (fs : FS) (s : State) (paths keys : List String)
    (vals : String → List String) (k : String) :
    let s' := processCommandLine c fs s paths keys vals
    (∀ v vs, k ∈ keys → vals k = v :: vs → hasValue s' k = true ∧ getValue s' k = v) ∧
    ((k ∉ keys ∨ vals k = []) → hasValue s' k = hasValue s k ∧ getValue s' k = getValue s k) := by
  have hk : (addDataPaths fs paths (init c fs s)).keyValues = s.keyValues := by
    rw [addDataPaths_spec]
    simp only
    rcases init_cases c fs s with ⟨_, e⟩ | ⟨_, e⟩
    · rw [e]
    · rw [e]
      obtain ⟨_, _, _, h, _⟩ := ext_initBody c fs s
      exact h
  have h2 : ∀ (ks : List String) (t : State), (k ∉ ks ∨ vals k = []) →
      find k (processKeys vals ks t).keyValues = find k t.keyValues := by
    intro ks
    induction ks with
    | nil => intro t _; rfl
    | cons x xs ih =>
      intro t h
      unfold processKeys
      cases e : vals x with
      | nil =>
        exact ih t (h.imp (fun h => fun h' => h (by simp [h'])) id)
      | cons v vs =>
        have hne : k ≠ x := by
          rintro rfl
          rcases h with h | h
          · exact h (by simp)
          · rw [h] at e; exact absurd e (by simp)
        simp only
        rw [ih _ (h.imp (fun h => fun h' => h (by simp [h'])) id)]
        simp only [addKeyValuePair, find_put, if_neg hne]
  have h1 : ∀ (ks : List String) (t : State) (v : String) (vs : List String), k ∈ ks →
      vals k = v :: vs → find k (processKeys vals ks t).keyValues = some v := by
    intro ks
    induction ks with
    | nil => intro t v vs h; simp at h
    | cons x xs ih =>
      intro t v vs h e
      unfold processKeys
      by_cases hx : k ∈ xs
      · cases vals x with
        | nil => exact ih t v vs hx e
        | cons w ws => exact ih _ v vs hx e
      · rcases List.mem_cons.1 h with rfl | h
        · rw [e]
          simp only
          rw [h2 xs _ (Or.inl hx)]
          simp [addKeyValuePair, find_put]
        · exact absurd h hx
  simp only [processCommandLine, ensured_eq]
  refine ⟨?_, ?_⟩
  · intro v vs h e
    have := h1 keys (addDataPaths fs paths (init c fs s)) v vs h e
    simp [hasValue, getValue, this]
  · intro h
    have := h2 keys (addDataPaths fs paths (init c fs s)) h
    simp [hasValue, getValue, this, hk]

/-- C43: a file parameter.  A stored value that can be found wins, otherwise the standard file that
can be found, otherwise the standard name as it is. -/
theorem C43_file_parameter (c : Config) (fs : FS) (s : State) (k std : String) :
    let found := fun fn => (getDataFileAbsolute c fs s fn).2
    let r := (checkValidFileParameter c fs s k std).2
    (hasValue s k = true → (found (getValue s k)).1 = true → r = (found (getValue s k)).2) ∧
    ((hasValue s k = false ∨ (found (getValue s k)).1 = false) → std ≠ "" →
      (found std).1 = true → r = (found std).2) ∧
    ((hasValue s k = false ∨ (found (getValue s k)).1 = false) →
      (std = "" ∨ (found std).1 = false) → r = std) := by
  have hidem : ∀ fn, (getDataFileAbsolute c fs (init c fs s) fn).2 =
      (getDataFileAbsolute c fs s fn).2 := by
    intro fn
    have : init c fs (init c fs s) = init c fs s := by
      rcases init_cases c fs s with ⟨_, e⟩ | ⟨_, e⟩
      · rw [e, e]
      · rw [e]
        obtain ⟨_, _, _, _, h⟩ := ext_initBody c fs s
        unfold init
        rw [if_pos h]
    unfold getDataFileAbsolute
    simp only [ensured_eq, this, ite_self]
  have hstd : ∀ t, (t = s ∨ t = init c fs s) →
      (checkStandard c fs t std).2 = if std = "" then std else
        if (getDataFileAbsolute c fs s std).2.1 then (getDataFileAbsolute c fs s std).2.2 else std := by
    intro t ht
    unfold checkStandard
    have : (getDataFileAbsolute c fs t std).2 = (getDataFileAbsolute c fs s std).2 := by
      rcases ht with rfl | rfl
      · rfl
      · exact hidem std
    by_cases h : std = ""
    · rw [if_pos h, if_pos h]
    · rw [if_neg h, if_neg h]
      simp only [this]
      split <;> rfl
  simp only
  unfold checkValidFileParameter
  cases hv : hasValue s k with
  | false =>
    refine ⟨by simp, ?_, ?_⟩
    · intro _ h1 h2
      rw [if_neg (by simp), hstd s (Or.inl rfl), if_neg h1, if_pos h2]
    · intro _ h
      rw [if_neg (by simp), hstd s (Or.inl rfl)]
      rcases h with h | h
      · rw [if_pos h]
      · rw [h]; simp
  | true =>
    simp only [if_true]
    cases hf : (getDataFileAbsolute c fs s (getValue s k)).2.1 with
    | true => refine ⟨by simp, by simp, by simp⟩
    | false =>
      rw [lookup_state]
      refine ⟨by simp, ?_, ?_⟩
      · intro _ h1 h2
        rw [if_neg (by simp), hstd _ (Or.inr rfl), if_neg h1, if_pos h2]
      · intro _ h
        rw [if_neg (by simp), hstd _ (Or.inr rfl)]
        rcases h with h | h
        · rw [if_pos h]
        · rw [h]; simp

theorem splitComma_ne_nil (l : List Char) : splitComma l ≠ [] := by
  cases l with
  | nil => simp [splitComma]
  | cons x xs =>
    unfold splitComma
    split
    · simp
    · split <;> simp

theorem splitComma_plain (l : List Char) (h : ',' ∉ l) : splitComma l = [l] := by
  induction l with
  | nil => rfl
  | cons x xs ih =>
    unfold splitComma
    rw [if_neg (fun e => h (by simp [e])), ih (fun e => h (by simp [e]))]

theorem splitComma_app (a b : List Char) (h : ',' ∉ a) :
    splitComma (a ++ ',' :: b) = a :: splitComma b := by
  induction a with
  | nil => simp [splitComma]
  | cons x xs ih =>
    rw [List.cons_append]
    conv => lhs; unfold splitComma
    rw [if_neg (fun e => h (by simp [e])), ih (fun e => h (by simp [e]))]

/-- Splitting is inverse to joining with commas. -/
theorem splitComma_join (l : List Char) :
    (∀ t ∈ splitComma l, ',' ∉ t) ∧ List.intercalate [','] (splitComma l) = l := by
  induction l with
  | nil => simp [splitComma, List.intercalate]
  | cons x xs ih =>
    unfold splitComma
    by_cases hx : x = ','
    · rw [if_pos hx]
      refine ⟨?_, ?_⟩
      · intro t ht
        rcases List.mem_cons.1 ht with rfl | ht
        · simp
        · exact ih.1 t ht
      · have h2 := ih.2
        cases e : splitComma xs with
        | nil => exact absurd e (splitComma_ne_nil xs)
        | cons t ts =>
          rw [e] at h2
          simp only [List.intercalate, List.intersperse] at h2 ⊢
          simp [h2, hx]
    · rw [if_neg hx]
      cases e : splitComma xs with
      | nil => exact absurd e (splitComma_ne_nil xs)
      | cons t ts =>
        rw [e] at ih
        refine ⟨?_, ?_⟩
        · intro u hu
          rcases List.mem_cons.1 hu with rfl | hu
          · simp only [List.mem_cons, not_or]
            exact ⟨fun e => hx e.symm, ih.1 t (by simp)⟩
          · exact ih.1 u (by simp [hu])
        · have h2 := ih.2
          cases ts with
          | nil => simp [List.intercalate] at h2 ⊢; exact h2
          | cons u us =>
            simp only [List.intercalate, List.intersperse, List.flatten_cons] at h2 ⊢
            rw [List.cons_append, h2]

/-- C43: `toVector3f` accepts exactly the strings `(x,y,z)`, where `x`, `y` and `z` contain no comma
and denote finite numbers; the result consists of these. -/
theorem C43_vector {F : Type} (atof : List Char → F) (finite : F → Bool) (s : List Char)
    (r : F × F × F) :
    toVector3f atof finite s = some r ↔ ∃ x y z : List Char,
      s = ['('] ++ x ++ [','] ++ y ++ [','] ++ z ++ [')'] ∧ ',' ∉ x ∧ ',' ∉ y ∧ ',' ∉ z ∧
      finite (atof x) = true ∧ finite (atof y) = true ∧ finite (atof z) = true ∧
      r = (atof x, atof y, atof z) := by
  constructor
  · intro h
    unfold toVector3f at h
    by_cases h1 : s.length < 3
    · rw [if_pos h1] at h; exact absurd h (by simp)
    rw [if_neg h1] at h
    by_cases h2 : s[0]? ≠ some '(' ∨ s[s.length - 1]? ≠ some ')'
    · rw [if_pos h2] at h; exact absurd h (by simp)
    rw [if_neg h2] at h
    have ho : s[0]? = some '(' := by
      cases hd : decide (s[0]? = some '(') with
      | true => exact of_decide_eq_true hd
      | false => exact absurd (Or.inl (of_decide_eq_false hd)) h2
    have hc : s[s.length - 1]? = some ')' := by
      cases hd : decide (s[s.length - 1]? = some ')') with
      | true => exact of_decide_eq_true hd
      | false => exact absurd (Or.inr (of_decide_eq_false hd)) h2
    -- the string without its brackets
    obtain ⟨m, rfl⟩ : ∃ m, s = '(' :: (m ++ [')']) := by
      cases s with
      | nil => simp at ho
      | cons a t =>
        simp at ho
        subst ho
        have ht : t ≠ [] := by
          intro e
          subst e
          exact h1 (by simp)
        refine ⟨t.dropLast, ?_⟩
        have hl : t.getLast ht = ')' := by
          have hlen : t.length ≠ 0 := by simpa using ht
          have : ('(' :: t)[('(' :: t).length - 1]? = t[t.length - 1]? := by
            have e : ('(' :: t).length - 1 = (t.length - 1) + 1 := by simp; omega
            rw [e, List.getElem?_cons_succ]
          rw [this] at hc
          rw [List.getLast_eq_getElem]
          rw [List.getElem?_eq_getElem (by omega)] at hc
          exact Option.some.inj hc
        rw [← hl, List.dropLast_concat_getLast ht]
    have hm : ('(' :: (m ++ [')'])).tail.dropLast = m := by simp
    rw [hm] at h
    split at h
    · rename_i x y z e
      have hj := splitComma_join m
      rw [e] at hj
      obtain ⟨hj1, hj2⟩ := hj
      by_cases f1 : finite (atof x) = true
      · by_cases f2 : finite (atof y) = true
        · by_cases f3 : finite (atof z) = true
          · simp only [f1, f2, f3, Bool.not_true, Bool.false_eq_true, if_false,
              Option.some.injEq] at h
            refine ⟨x, y, z, ?_, hj1 x (by simp), hj1 y (by simp), hj1 z (by simp), f1, f2, f3,
              h.symm⟩
            rw [← hj2]
            simp [List.intercalate]
          · simp [f1, f2, f3] at h
        · simp [f1, f2] at h
      · simp [f1] at h
    · exact absurd h (by simp)
  · rintro ⟨x, y, z, rfl, hx, hy, hz, fx, fy, fz, rfl⟩
    unfold toVector3f
    have e0 : ['('] ++ x ++ [','] ++ y ++ [','] ++ z ++ [')'] =
        '(' :: ((x ++ ',' :: (y ++ ',' :: z)) ++ [')']) := by simp
    rw [e0]
    have e2 : ('(' :: ((x ++ ',' :: (y ++ ',' :: z)) ++ [')']))[('(' :: ((x ++ ',' ::
        (y ++ ',' :: z)) ++ [')'])).length - 1]? = some ')' := by
      rw [← List.cons_append]
      generalize '(' :: (x ++ ',' :: (y ++ ',' :: z)) = t
      rw [List.length_append, List.length_singleton, Nat.add_sub_cancel,
        List.getElem?_append_right (Nat.le_refl _)]
      simp
    rw [if_neg (by simp; omega), if_neg (by rw [e2]; simp)]
    have e1 : ('(' :: ((x ++ ',' :: (y ++ ',' :: z)) ++ [')'])).tail.dropLast =
        x ++ ',' :: (y ++ ',' :: z) := by
      rw [List.tail_cons, List.dropLast_concat]
    rw [e1, splitComma_app x _ hx, splitComma_app y _ hy, splitComma_plain z hz]
    simp [fx, fy, fz]

/-! ### Non-vacuity -/

/-- A file system with a directory `d` containing `f`. -/
def demoFs : FS :=
  { status := fun p => if p = "d" ∨ p = "e" then .directory
      else if p = "d/f" ∨ p = "e/f" then .regular else .missing
    isLink := fun _ => some false }

/-- No environment variables. -/
def demoCfg : Config :=
  { getenv := fun _ => none, simoxDataPath := none, virtualRobotDataPath := some "e",
    virtualRobotSrcDataPath := none, cwd := "", join := fun a b => a ++ "/" ++ b }

example : (getDataFileAbsolute demoCfg demoFs (addDataPath demoFs start "d").1 "f").2 =
    (true, "d/f") := by decide
example : (getDataFileAbsolute demoCfg demoFs start "f").2 = (true, "e/f") := by decide
example : (getDataFileAbsolute demoCfg demoFs start "g").2 = (false, "g") := by decide
example : (run demoCfg [(demoFs, .add "d"), (demoFs, .lookup "f"), (demoFs, .add "d")]
    start).dataPaths = ["d", "e", "d"] := by decide
example : (addDataPath ⟨fun _ => .missing, fun _ => some true⟩ start "x").2 = true := by decide
example : ∃ c : Config, c.getenv "SIMOX_DATA_PATH" = some "d" ∧
    c.getenv "VIRTUAL_ROBOT_DATA_PATH" = none ∧ c.simoxDataPath = none :=
  ⟨{ demoCfg with getenv := fun v => if v = "SIMOX_DATA_PATH" then some "d" else none }, by simp,
    by simp, rfl⟩
example : toVector3f List.length (fun _ => true) "(1,22,)".toList = some (1, 2, 0) := by decide
example : toVector3f List.length (fun _ => true) "(1,22)".toList = none := by decide

end Simox.Env
