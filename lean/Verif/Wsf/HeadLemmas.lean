import Verif.Wsf.DataLemmas

/-!
# Reading back what was written
-/

namespace Simox.Wsf

open Workspace Spec

theorem bind_ok {α β : Type} {m : Rd α} {f : α → Rd β} {s r : List UInt8} {a : α} (h : m s = .ok a r) :
    (m >>= f) s = f a r := by
  show (match m s with | .ok a r => f a r | .throw => .throw | .ub => .ub) = _
  rw [h]

theorem bind_eq {α β : Type} {m : Rd α} {f : α → Rd β} {s r : List UInt8} {a : α} {x : Res β}
    (h : m s = .ok a r) (g : f a r = x) : (m >>= f) s = x := (bind_ok h).trans g

theorem bind_throw {α β : Type} {m : Rd α} {f : α → Rd β} {s : List UInt8} (h : m s = .throw) :
    (m >>= f) s = .throw := by
  show (match m s with | .ok a r => f a r | .throw => .throw | .ub => .ub) = _
  rw [h]

theorem bind_ub {α β : Type} {m : Rd α} {f : α → Rd β} {s : List UInt8} (h : m s = .ub) :
    (m >>= f) s = .ub := by
  show (match m s with | .ok a r => f a r | .throw => .throw | .ub => .ub) = _
  rw [h]

theorem pure_ok {α : Type} (a : α) (s : List UInt8) : (pure a : Rd α) s = .ok a s := rfl

theorem throwIf_ok {c : Bool} (h : c = false) (s : List UInt8) : throwIf c s = .ok () s := by
  subst h; rfl

theorem ubIf_ok {c : Bool} (h : c = false) (s : List UInt8) : ubIf c s = .ok () s := by
  subst h; rfl

theorem orUb_ok {α : Type} {o : Option α} {a : α} (h : o = some a) (s : List UInt8) : orUb o s = .ok a s := by
  subst h; rfl

theorem le32_length (n : Nat) : (le32 n).length = 4 := rfl

theorem readU32_le32 {n : Nat} (h : n < 2 ^ 32) (t : List UInt8) : readU32 (le32 n ++ t) = .ok n t := by
  show Res.ok _ t = _
  congr 1
  simp only [UInt8.toNat_ofNat']
  omega

theorem readInt_write {v : Int} (h : IsInt v) (t : List UInt8) : readInt (writeInt v ++ t) = .ok v t := by
  unfold readInt writeInt
  have hm : (v % 2 ^ 32).toNat < 2 ^ 32 := by omega
  have e : i32 ((v % 2 ^ 32).toNat : Int) = v := by
    unfold i32
    have h1 := h.1; have h2 := h.2
    omega
  rw [bind_ok (readU32_le32 hm t), pure_ok, e]

theorem readFloat_write (f : F) (t : List UInt8) : readFloat (writeFloat f ++ t) = .ok f t := by
  unfold readFloat writeFloat
  rw [bind_ok (readU32_le32 f.toNat_lt t), pure_ok]
  simp

theorem readBytes_append (l t : List UInt8) : readBytes l.length (l ++ t) = .ok l t := by
  unfold readBytes
  rw [if_pos (by simp)]
  simp

theorem readInt_le32 {n : Nat} (h : n < 2 ^ 31) (t : List UInt8) : readInt (le32 n ++ t) = .ok (n : Int) t := by
  have := readInt_write (v := n) ⟨by omega, by omega⟩ t
  unfold writeInt at this
  have e : ((n : Int) % 2 ^ 32).toNat = n := by omega
  rwa [e] at this

theorem takeWhile_plain {s : Str} (h : 0 ∉ s) : s.takeWhile (fun x => decide (x ≠ 0)) = s := by
  induction s with
  | nil => rfl
  | cons x s ih =>
    simp only [List.mem_cons, not_or] at h
    rw [List.takeWhile_cons, if_pos (by simp; exact fun g => h.1 g.symm), ih h.2]

theorem readString_write {s : Str} (h : Plain s) (res : Str) (t : List UInt8) :
    readString res (writeString s ++ t) = .ok s t := by
  unfold readString writeString
  rw [List.append_assoc, bind_ok (readInt_le32 h.2.2 (s ++ t))]
  have : 0 < s.length := List.length_pos_iff.mpr h.1
  rw [if_neg (by omega)]
  have e : ((s.length : Int)).toNat = s.length := by omega
  rw [e, bind_ok (readBytes_append s t), pure_ok]
  rw [takeWhile_plain h.2.1]

theorem readString_empty (res : Str) (t : List UInt8) : readString res (writeString [] ++ t) = .ok res t := by
  unfold readString writeString
  rw [List.append_assoc, bind_ok (readInt_le32 (by simp) ([] ++ t))]
  rfl

attribute [local irreducible] readInt readFloat readString writeInt writeFloat writeString

theorem readPair_write (a b : F) (t : List UInt8) :
    readPair ((writeFloat a ++ writeFloat b) ++ t) = .ok (a, b) t := by
  unfold readPair
  rw [List.append_assoc, bind_ok (readFloat_write a _), bind_ok (readFloat_write b _), pure_ok]

theorem forSix_write {α : Type} {f : Rd α} {g : Fin 6 → α} {wr : Fin 6 → List UInt8}
    (h : ∀ i t, f (wr i ++ t) = .ok (g i) t) (t : List UInt8) :
    forSix f (six.flatMap wr ++ t) = .ok g t := by
  unfold forSix six
  simp only [List.flatMap_cons, List.flatMap_nil, List.append_nil, List.append_assoc]
  rw [bind_ok (h 0 _), bind_ok (h 1 _), bind_ok (h 2 _), bind_ok (h 3 _), bind_ok (h 4 _),
    bind_ok (h 5 _), pure_ok]
  congr 1
  funext i
  match i with
  | 0 => rfl
  | 1 => rfl
  | 2 => rfl
  | 3 => rfl
  | 4 => rfl
  | 5 => rfl

theorem skipLimits_write (l : List (F × F)) (t : List UInt8) :
    skipLimits l.length (l.flatMap (fun l => writeFloat l.1 ++ writeFloat l.2) ++ t) = .ok () t := by
  induction l with
  | nil => rfl
  | cons p l ih =>
    rw [List.length_cons, skipLimits, List.flatMap_cons, List.append_assoc, List.append_assoc,
      bind_ok (readFloat_write _ _), bind_ok (readFloat_write _ _), ih]

theorem plain_notSet : Plain notSet := by
  exact ⟨by decide, by decide, by decide +kernel⟩

theorem plain_dataStart : Plain dataStart := by
  exact ⟨by decide, by decide, by decide +kernel⟩

theorem plain_dataEnd : Plain dataEnd := by
  exact ⟨by decide, by decide, by decide +kernel⟩

theorem loadLimits_write' {v0 v1 : Int} (hv : v0 > 1 ∨ (v0 = 1 ∧ v1 > 0)) (l : List (F × F))
    {l' : List (F × F)} (he : l'.length = l.length) (hl : l.length < 2 ^ 31) (t : List UInt8) :
    loadLimits v0 v1 l' (writeInt l.length ++
      (l.flatMap (fun l => writeFloat l.1 ++ writeFloat l.2) ++ t)) = .ok () t := by
  unfold loadLimits
  rw [if_pos hv, bind_ok (readInt_write ⟨by omega, by omega⟩ _), bind_ok (throwIf_ok (by simp [he]) _), he,
    skipLimits_write]

theorem loadLimits_write {v0 v1 : Int} (hv : v0 > 1 ∨ (v0 = 1 ∧ v1 > 0)) (l : List (F × F))
    (hl : l.length < 2 ^ 31) (t : List UInt8) :
    loadLimits v0 v1 l (writeInt l.length ++
      (l.flatMap (fun l => writeFloat l.1 ++ writeFloat l.2) ++ t)) = .ok () t := by
  unfold loadLimits
  rw [if_pos hv, bind_ok (readInt_write ⟨by omega, by omega⟩ _), bind_ok (throwIf_ok (by simp) _),
    skipLimits_write]

theorem loadBase_ok {robot : Robot} {v0 v1 : Int} (hv : v0 > 1 ∨ (v0 = 1 ∧ v1 > 0)) {tcp r : Str}
    {s t : List UInt8} (h : readString tcp s = .ok r t) (h1 : r ≠ []) (h2 : robot.hasNode r = true) :
    loadBase robot v0 v1 tcp s = .ok (r, some r) t := by
  have key : (if r = [] ∨ robot.hasNode r = false then none else some r) = some r := by
    apply if_neg
    rintro (g | g)
    · exact h1 g
    · rw [h2] at g; exact Bool.noConfusion g
  unfold loadBase
  rw [if_pos hv, bind_ok h, pure_ok, key]

theorem readString_base {base : Option Str} {tcp : Str} (hb : ∀ b, base = some b → Plain b)
    (t : List UInt8) : readString tcp (writeString (base.getD []) ++ t) = .ok (base.getD tcp) t := by
  cases base with
  | none => exact readString_empty tcp t
  | some b => exact readString_write (hb b rfl) tcp t

theorem loadBase_write {robot : Robot} {v0 v1 : Int} (hv : v0 > 1 ∨ (v0 = 1 ∧ v1 > 0)) {base : Option Str}
    {tcp : Str} (hb : ∀ b, base = some b → Plain b ∧ robot.hasNode b = true) (ht : Plain tcp)
    (hn : robot.hasNode tcp = true) (t : List UInt8) :
    loadBase robot v0 v1 tcp (writeString (base.getD []) ++ t) =
      .ok (base.getD tcp, some (base.getD tcp)) t := by
  refine loadBase_ok hv (readString_base (fun b e => (hb b e).1) t) ?_ ?_
  · cases base with
    | none => exact ht.1
    | some b => exact (hb b rfl).1.1
  · cases base with
    | none => exact hn
    | some b => exact (hb b rfl).2

theorem plain_getD {o : Option Str} {robot : Robot}
    (h : ∀ s, o = some s → Plain s ∧ s ≠ notSet ∧ (robot.nodeSet s).isSome) : Plain (o.getD notSet) := by
  cases o with
  | none => exact plain_notSet
  | some s => exact (h s rfl).1

theorem modelOf_getD {o : Option Str} {robot : Robot}
    (h : ∀ s, o = some s → Plain s ∧ s ≠ notSet ∧ (robot.nodeSet s).isSome) :
    modelOf robot (o.getD notSet) = o := by
  unfold modelOf
  cases o with
  | none => simp
  | some s =>
    obtain ⟨h1, h2, h3⟩ := h s rfl
    simp only [Option.getD_some]
    rw [if_pos ⟨h1.1, h2, h3⟩]

/-- What is read from the head of a saved file. -/
def reloaded (m : Members) : Members := { m with base := some (m.base.getD m.tcp) }

/-- The orientation type set by `load`. -/
theorem orientationOf_eq (v0 v1 : Int) : orientationOf v0 v1 = orientationFor (v0, v1) := by
  unfold orientationOf orientationFor
  by_cases a : v0 > 2 ∨ (v0 = 2 ∧ v1 > 7)
  · rw [if_pos a, if_neg (by simp [orientationFor.Before]; omega), if_neg (by simp [orientationFor.Before]; omega),
      if_neg (by simp [orientationFor.Before]; omega)]
  · rw [if_neg a]
    by_cases b : v0 = 2 ∧ v1 > 6
    · rw [if_pos b, if_neg (by simp [orientationFor.Before]; omega),
        if_neg (by simp [orientationFor.Before]; omega), if_pos (by simp [orientationFor.Before]; omega)]
    · rw [if_neg b]
      by_cases e : v0 = 2 ∧ v1 = 6
      · rw [if_pos e, if_neg (by simp [orientationFor.Before]; omega),
          if_pos (by simp [orientationFor.Before]; omega)]
      · rw [if_neg e, if_pos (by simp [orientationFor.Before]; omega)]

/-- A version whose head has all fields. -/
def Readable (cur : Int × Int) (v0 v1 : Int) : Prop :=
  versionBad cur v0 v1 = false ∧ (v0 > 1 ∨ (v0 = 1 ∧ v1 > 0))

theorem loadHead_write {sub : F → F → F} {robot : Robot} {type : Str} {limits : List (F × F)} {m : Members}
    {w : WDA} (h : Sound sub robot type limits m w) {cur : Int × Int}
    (hv : Readable cur m.versionMajor m.versionMinor) (t : List UInt8) :
    loadHead sub robot type cur (saveHead robot type limits m w ++ t) =
      .ok (reloaded m, (w.filled : Int), (w.maxEntry : Int)) t := by
  obtain ⟨s, hs⟩ : ∃ s, s = saveHead robot type limits m w ++ t := ⟨_, rfl⟩
  rw [← hs, loadHead]
  delta saveHead at hs
  simp only [List.append_assoc] at hs
  subst hs
  have hns := h.nodeSet.2.1
  have hc := h.counts
  refine bind_eq (readString_write h.fileType _ _) ?_
  refine bind_eq (throwIf_ok (by simp [typeOk]) _) ?_
  refine bind_eq (readInt_write h.version.1 _) ?_
  refine bind_eq (readInt_write h.version.2 _) ?_
  refine bind_eq (throwIf_ok hv.1 _) ?_
  refine bind_eq (readString_write h.robotType _ _) ?_
  refine bind_eq (throwIf_ok (by simp) _) ?_
  refine bind_eq (readString_write h.nodeSet.1 _ _) ?_
  refine bind_eq (throwIf_ok (by rw [hns]; rfl) _) ?_
  rw [hns, Option.getD_some]
  refine bind_eq (loadLimits_write hv.2 limits h.nodeSet.2.2 _) ?_
  refine bind_eq (readString_write h.tcp.1 _ _) ?_
  refine bind_eq (throwIf_ok (by rw [h.tcp.2]; rfl) _) ?_
  refine bind_eq (loadBase_write hv.2 h.base h.tcp.1 h.tcp.2 _) ?_
  refine bind_eq (readString_write (plain_getD h.staticModel) _ _) ?_
  refine bind_eq (readString_write (plain_getD h.dynamicModel) _ _) ?_
  refine bind_eq (readInt_write h.loops.1 _) ?_
  refine bind_eq (readInt_write h.loops.2 _) ?_
  refine bind_eq (readFloat_write _ _) ?_
  refine bind_eq (readFloat_write _ _) ?_
  refine bind_eq (forSix_write (g := m.num)
    (fun i t => readInt_write ⟨by have := (h.num i).1; omega, (h.num i).2⟩ t) _) ?_
  refine bind_eq (readInt_write ⟨by omega, by omega⟩ _) ?_
  refine bind_eq (readInt_write ⟨by omega, by omega⟩ _) ?_
  refine bind_eq (forSix_write (g := fun i => (m.lo i, m.hi i))
    (fun i t => readPair_write (m.lo i) (m.hi i) t) _) ?_
  refine bind_eq (forSix_write (g := fun i => (m.achLo i, m.achHi i))
    (fun i t => readPair_write (m.achLo i) (m.achHi i) t) _) ?_
  refine bind_eq (readString_write plain_dataStart _ _) ?_
  refine bind_eq (throwIf_ok (by simp) _) ?_
  refine (pure_ok _ _).trans ?_
  have e : (fun i => sub (m.hi i) (m.lo i)) = m.space := by
    funext i; exact (h.space i).symm
  rw [modelOf_getD h.staticModel, modelOf_getD h.dynamicModel, orientationOf_eq, ← h.orientation]
  beta_reduce
  rw [e]
  rfl

theorem throwIf_throw {c : Bool} (h : c = true) (s : List UInt8) : throwIf c s = .throw := by
  subst h; rfl

/-- The reasons to refuse a file saved with `robot` and `type` for `robot'` and `type'`. -/
theorem loadHead_refused {sub sub' : F → F → F} {robot robot' : Robot} {type type' : Str}
    {limits : List (F × F)} {m : Members} {w : WDA} (h : Sound sub robot type limits m w) {cur : Int × Int}
    (t : List UInt8)
    (hr : typeOk type' (type ++ binaryFile) = false ∨ versionBad cur m.versionMajor m.versionMinor = true ∨
      robot'.type ≠ robot.type ∨ robot'.nodeSet m.nodeSet = none ∨
      ((m.versionMajor > 1 ∨ (m.versionMajor = 1 ∧ m.versionMinor > 0)) ∧
        ((∃ l, robot'.nodeSet m.nodeSet = some l ∧ l.length ≠ limits.length) ∨
          robot'.hasNode m.tcp = false))) :
    loadHead sub' robot' type' cur (saveHead robot type limits m w ++ t) = .throw := by
  obtain ⟨s, hs⟩ : ∃ s, s = saveHead robot type limits m w ++ t := ⟨_, rfl⟩
  rw [← hs, loadHead]
  delta saveHead at hs
  simp only [List.append_assoc] at hs
  subst hs
  refine bind_eq (readString_write h.fileType _ _) ?_
  by_cases a1 : typeOk type' (type ++ binaryFile) = true
  case neg =>
    refine bind_throw (throwIf_throw ?_ _)
    simpa using a1
  refine bind_eq (throwIf_ok (by rw [a1]; rfl) _) ?_
  refine bind_eq (readInt_write h.version.1 _) ?_
  refine bind_eq (readInt_write h.version.2 _) ?_
  by_cases a2 : versionBad cur m.versionMajor m.versionMinor = true
  case pos => exact bind_throw (throwIf_throw a2 _)
  refine bind_eq (throwIf_ok (by simpa using a2) _) ?_
  refine bind_eq (readString_write h.robotType _ _) ?_
  by_cases a3 : robot.type = robot'.type
  case neg =>
    refine bind_throw (throwIf_throw ?_ _)
    simpa using a3
  refine bind_eq (throwIf_ok (by simpa using a3) _) ?_
  refine bind_eq (readString_write h.nodeSet.1 _ _) ?_
  cases a4 : robot'.nodeSet m.nodeSet with
  | none => exact bind_throw (throwIf_throw rfl _)
  | some l =>
    refine bind_eq (throwIf_ok rfl _) ?_
    rw [Option.getD_some]
    have hr' : (m.versionMajor > 1 ∨ (m.versionMajor = 1 ∧ m.versionMinor > 0)) ∧
        (l.length ≠ limits.length ∨ robot'.hasNode m.tcp = false) := by
      rcases hr with g | g | g | g | ⟨g1, ⟨l', g2, g3⟩ | g2⟩
      · rw [g] at a1; cases a1
      · exact absurd g a2
      · exact absurd a3.symm g
      · rw [g] at a4; cases a4
      · rw [g2] at a4; cases a4; exact ⟨g1, Or.inl g3⟩
      · exact ⟨g1, Or.inr g2⟩
    by_cases a5 : l.length = limits.length
    case neg =>
      refine bind_throw ?_
      unfold loadLimits
      rw [if_pos hr'.1]
      refine bind_eq (readInt_write ⟨by omega, by have := h.nodeSet.2.2; omega⟩ _) ?_
      refine bind_throw (throwIf_throw ?_ _)
      simp only [decide_eq_true_eq]
      omega
    refine bind_eq (loadLimits_write' hr'.1 limits a5 h.nodeSet.2.2 _) ?_
    refine bind_eq (readString_write h.tcp.1 _ _) ?_
    refine bind_throw (throwIf_throw ?_ _)
    rw [hr'.2.resolve_left (by simpa using a5)]
    rfl

theorem versionBad_known (cur : Int × Int) {v0 v1 : Int} (h : (v0, v1) ∈ versions) :
    versionBad cur v0 v1 = false := by
  unfold versionBad
  simp only [versions, List.mem_cons, Prod.mk.injEq, List.not_mem_nil, or_false] at h
  simp only [decide_eq_false_iff_not]
  omega

theorem versionBad_unknown {cur : Int × Int} {v0 v1 : Int} (h0 : 1 ≤ v0) (h : (v0, v1) ∉ cur :: versions) :
    versionBad cur v0 v1 = true := by
  obtain ⟨a, b⟩ := cur
  unfold versionBad
  rw [decide_eq_true_eq]
  refine Classical.byContradiction fun g => h ?_
  by_cases e : v0 = a ∧ v1 = b
  · rw [e.1, e.2]
    exact List.mem_cons_self
  refine List.mem_cons_of_mem _ ?_
  have k : (v0 = 1 ∧ (v1 = 0 ∨ v1 = 2 ∨ v1 = 3)) ∨ (v0 = 2 ∧ 0 ≤ v1 ∧ v1 ≤ 9) := by
    dsimp only at g
    omega
  rcases k with ⟨rfl, rfl | rfl | rfl⟩ | ⟨rfl, k⟩
  · decide
  · decide
  · decide
  · obtain ⟨n, rfl⟩ : ∃ n : Nat, v1 = n := ⟨v1.toNat, by omega⟩
    have : ∀ n : Fin 10, ((2 : Int), ((n : Nat) : Int)) ∈ versions := by decide
    exact this ⟨n, by omega⟩

theorem typeOk_unknown {type type' : Str} (h1 : type ∉ knownTypes) (h2 : type ≠ type') :
    typeOk type' (type ++ binaryFile) = false := by
  simp only [knownTypes, List.map_cons, List.map_nil, List.mem_cons, List.not_mem_nil, or_false, not_or] at h1
  obtain ⟨a, b, c, d, e⟩ := h1
  simp only [typeOk, List.append_cancel_right_eq, Bool.or_eq_false_iff, decide_eq_false_iff_not]
  exact ⟨⟨⟨⟨⟨a, b⟩, c⟩, d⟩, e⟩, h2⟩

end Simox.Wsf
