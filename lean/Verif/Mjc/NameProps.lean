import Verif.Mjc.NameLemmas

/-!
# C148: the names of bodies, and pairs of bodies without contacts
-/

namespace Simox.Mjc

open Kin

section
variable {R V Q : Type} [Group R] [AddCommGroup V] [DistribMulAction R V]

/-- If no body is merged with more than one other, the name that is given for a node is the name of a body in the document, and this body has every element of the body of the node. -/
theorem C148_names_partial (loc : String → Pose R V) {b : Body R V Q} (hn : b.names.Nodup) (hs : Single b) {x : Body R V Q} (hx : x ∈ b.all) {e : Item R V Q} (he : e ∈ x.items) :
    HoldsIn (sanitize loc b.all.length 1 b []).1.all (mergedName x.name (sanitize loc b.all.length 1 b []).2).1 e := by
  obtain ⟨new, e1, _, h1⟩ := sanitize_named (loc := loc) _ b le_rfl hn hs [] (by simp)
  rw [e1, List.nil_append]
  exact h1 b (by simp) x hx e he

/-- Nodes of different names that were not merged have different names in the document: a node that is in no set keeps its name. -/
theorem C148_unmerged {s : Sets} {n : String} (h : ∀ l ∈ s, n ∉ l) : (mergedName n s).1 = n := by
  unfold mergedName
  rw [find_absent h]
  rfl

/-- The pairs of bodies without contacts are exactly the pairs of nodes that ask for it, in their order, with the names of their bodies. Looking for names does not change them. -/
theorem C148_excludes (l : List (String × String)) (s : Sets) : (excludes l s).1 = l.map fun x => ((mergedName x.1 s).1, (mergedName x.2 s).1) := by
  have h : ∀ (l : List (String × String)) (s t : Sets), (∀ n, Sets.find n t = s.find n) → (excludes l t).1 = l.map fun x => ((mergedName x.1 s).1, (mergedName x.2 s).1) := by
    intro l
    induction l with
    | nil => exact fun s t _ => rfl
    | cons x l ih =>
      intro s t ht
      rw [List.map_cons, excludes]
      simp only
      rw [ih s]
      · simp only [mergedName, find_with_id, ht]
      · intro n
        simp only [mergedName, find_with_id, ht]
  exact h l s s fun _ => rfl

end

/-- The hypotheses of `C148_names_partial` hold for a body without mass with one body in it that has a mesh. -/
example : Single (⟨"a", 1, [], [⟨"b", 1, [⟨.geom, "b", false, 0, 1, 0, none⟩], []⟩]⟩ : Body ℤˣ ℤ ℤ) ∧
    (mergedName "b" (sanitize (fun _ => 1) 2 1 (⟨"a", 1, [], [⟨"b", 1, [⟨.geom, "b", false, 0, 1, 0, none⟩], []⟩]⟩ : Body ℤˣ ℤ ℤ) []).2).1 = "a~b" := by
  refine ⟨?_, by decide +kernel⟩
  simp [Single, Body.all, allAll, Body.bodies, Body.items, hasMass]

/-- If two bodies are merged into another one, one after the other, the body is called `a~b~c`, but the name given for its first node is `a~b`: there is no such body. -/
theorem C148_names_false : ∃ b : Body ℤˣ ℤ ℤ, (sanitize (fun _ => 1) b.all.length 1 b []).1.all.map Body.name = ["a~b~c"] ∧ b.names = ["a", "b", "c"] ∧
    (mergedName "a" (sanitize (fun _ => 1) b.all.length 1 b []).2).1 = "a~b" := by
  refine ⟨⟨"a", 1, [], [⟨"b", 1, [], [⟨"c", 1, [⟨.geom, "c", false, 0, 1, 0, none⟩], []⟩]⟩]⟩, ?_, rfl, ?_⟩ <;> decide +kernel

/-- A node without mass and without anything in it becomes a site, and the pairs without contacts name it nevertheless. -/
theorem C148_site_false : ∃ b : Body ℤˣ ℤ ℤ, b.names = ["a", "b"] ∧ (sanitize (fun _ => 1) b.all.length 1 b []).1.all.map Body.name = ["a"] ∧
    (excludes [("a", "b")] (sanitize (fun _ => 1) b.all.length 1 b []).2).1 = [("a", "b")] := by
  refine ⟨⟨"a", 1, [⟨.geom, "a", false, 0, 1, 0, none⟩], [⟨"b", 1, [], []⟩]⟩, rfl, ?_, ?_⟩ <;> decide +kernel

/-- An exporter that is used twice gives other names the second time. -/
theorem C148_again_false : ∃ b : Body ℤˣ ℤ ℤ, (sanitize (fun _ => 1) b.all.length 1 b []).1.all.map Body.name = ["a~b"] ∧
    (sanitize (fun _ => 1) b.all.length 1 b (sanitize (fun _ => 1) b.all.length 1 b []).2).1.all.map Body.name = ["a~b~b"] := by
  refine ⟨⟨"a", 1, [], [⟨"b", 1, [⟨.geom, "b", false, 0, 1, 0, none⟩], []⟩]⟩, ?_, ?_⟩ <;> decide +kernel

end Simox.Mjc
