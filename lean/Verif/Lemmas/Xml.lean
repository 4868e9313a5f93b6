import Verif.Model.Export
import Verif.Model.Import
import Verif.Spec.Xml
import Verif.Lemmas.Dict
set_option linter.unusedSimpArgs false
set_option linter.unusedVariables false
/-!
# Lemmas on XML trees: namespaces, indentation
-/
namespace Bpmn

theorem afterColon_acc (acc l : List Char) (h : ':' ∉ l) : afterColon acc l = acc ++ l := by
  induction l generalizing acc with
  | nil => simp [afterColon]
  | cons c r ih =>
    simp only [List.mem_cons, not_or] at h
    simp [afterColon, Ne.symm h.1, ih _ h.2]

theorem afterColon_append (acc p n : List Char) (h : ':' ∉ n) : afterColon acc (p ++ ':' :: n) = n := by
  induction p generalizing acc with
  | nil => simp [afterColon, afterColon_acc _ _ h]
  | cons c r ih =>
    simp only [List.cons_append, afterColon]
    split <;> exact ih _

theorem colon_not_mem_afterColon (acc l : List Char) (h : ':' ∉ acc) : ':' ∉ afterColon acc l := by
  induction l generalizing acc with
  | nil => simpa [afterColon]
  | cons c r ih =>
    simp only [afterColon]
    split
    · exact ih _ (by simp)
    · rename_i hc
      exact ih _ (by simp [h, Ne.symm hc])

theorem removeNamespace_of_plain (s : String) (h : ':' ∉ s.toList) : removeNamespace s = s := by
  simp [removeNamespace, afterColon_acc _ _ h]

namespace Export

theorem pySpace_iff (c : Char) : pySpace c = true ↔ c.toNat ∈ Spec.spaceCodes := by
  simp only [pySpace, Spec.spaceCodes, Bool.or_eq_true, Bool.and_eq_true, decide_eq_true_eq, beq_iff_eq, List.mem_cons,
    List.not_mem_nil, or_false]
  omega

theorem blank_iff (o : Option String) : blank o = true ↔ Spec.Blank o := by
  cases o with
  | none => simp [blank, Spec.Blank]
  | some s => simp [blank, Spec.Blank, List.all_eq_true, pySpace_iff]

theorem newline_lineBreak (n : Nat) : Spec.LineBreak (2 * n) (some (newline n)) := ⟨_, rfl, by simp [newline]⟩

@[simp] theorem blank_newline (n : Nat) : blank (some (newline n)) = true := by
  simp [blank, newline, pySpace]

mutual
theorem reindented_indent (level : Nat) : ∀ t : ETree, Spec.Reindented t (indent level t)
  | .node tag attrs x y [] => by
    simp only [indent]
    refine .mk (.inl rfl) ?_ .nil
    split
    · rename_i h
      exact .inr ⟨(blank_iff _).1 h.2, _, newline_lineBreak _⟩
    · exact .inl rfl
  | .node tag attrs x y (k :: ks) => by
    simp only [indent]
    refine .mk ?_ ?_ (reindented_indentAll (level + 1) (k :: ks))
    · split
      · rename_i h
        exact .inr ⟨by simp, (blank_iff _).1 h, _, newline_lineBreak _⟩
      · exact .inl rfl
    · split
      · rename_i h
        exact .inr ⟨(blank_iff _).1 h, _, newline_lineBreak _⟩
      · exact .inl rfl
theorem reindented_indentAll (level : Nat) : ∀ l : List ETree, Spec.ReindentedAll l (indentAll level l)
  | [] => by simpa [indentAll] using .nil
  | k :: ks => by
    simp only [indentAll]
    exact .cons (reindented_indent level k) (reindented_indentAll level ks)
end

mutual
theorem indent_idem (level : Nat) : ∀ t : ETree, indent level (indent level t) = indent level t
  | .node tag attrs x y [] => by
    simp only [indent]
    split <;> simp_all
  | .node tag attrs x y (k :: ks) => by
    have h := indentAll_idem (level + 1) (k :: ks)
    simp only [indentAll] at h
    simp only [indent, indentAll]
    simp only [h]
    congr 1
    · split <;> simp_all
    · split <;> simp_all
theorem indentAll_idem (level : Nat) : ∀ l : List ETree, indentAll level (indentAll level l) = indentAll level l
  | [] => by simp [indentAll]
  | k :: ks => by simp [indentAll, indent_idem level k, indentAll_idem level ks]
end

end Export
end Bpmn
