import Verif.Lemmas.ParseSteps
import Verif.Lemmas.Encode
/-! Every operation, with any arguments, keeps the declaration index exact. -/
namespace Folia
open Document

/-- A method that keeps the declaration index exact. -/
def KeepsExact {α : Type} (m : M Document α) : Prop := ∀ d, DeclsExact d → DeclsExact (m d).2

namespace KeepsExact
variable {α β : Type}

theorem pure (a : α) : KeepsExact (pure a : M Document α) := fun _ h => h
theorem err (e : ErrKind) : KeepsExact (M.err e : M Document α) := fun _ h => h
theorem get : KeepsExact (M.get : M Document Document) := fun _ h => h
theorem ofRes (f : Document → Res α) : KeepsExact (M.ofRes f) := fun _ h => h
theorem bind {m : M Document α} {f : α → M Document β} (h : KeepsExact m) (h' : ∀ a, KeepsExact (f a)) : KeepsExact (m >>= f) := by
  intro d hd
  rw [M.run_bind]
  have := h d hd
  rcases hm : m d with ⟨_ | a, d'⟩
  · rw [hm] at this; exact this
  · rw [hm] at this; exact h' a d' this
theorem declare (t : AnnotationType) (s a f : Option String) : KeepsExact (Document.declare t s a f) :=
  fun _ h => declare_exact h t s a f

theorem update {d : Document} (h : DeclsExact d) (k : Nat) (f : Declaration → Declaration)
    (hf : ∀ a, d.getDeclaration k = some a → DeclGrows a (f a)) : DeclsExact { d with declarations := d.declarations.update k f } := by
  refine Store.Exact.update h k f ?_ ?_
  · intro a ha
    show some (Declaration.indexId _ _) = some (Declaration.indexId _ _)
    rw [(hf a ha).type, (hf a ha).set]
  · intro a ha; exact (hf a ha).key

theorem callDeclaration (k : Nat) (f : Declaration → Res α × Declaration) (hf : ∀ a, DeclGrows a (f a).2) :
    KeepsExact (Document.callDeclaration k f) := by
  intro d hd
  unfold Document.callDeclaration
  split
  · rename_i dec hk
    exact update hd k _ fun a ha => by rw [hk] at ha; cases ha; exact hf dec
  · exact hd
theorem updDeclaration (k p : Nat) : KeepsExact (Document.updDeclaration k (linkProcessor p)) :=
  fun _ hd => update hd k _ fun a _ => .linkProcessor p a
theorem addName (k : Nat) (name : Res (Option String)) (f : String → Declaration → Res Nat × Declaration)
    (hf : ∀ s a, DeclGrows a (f s a).2) : KeepsExact (Document.addName k name f) := by
  unfold Document.addName
  split
  · refine bind (callDeclaration _ _ (hf _)) fun r => ?_
    split <;> exact pure _
  · exact pure _
theorem encodeProc (k : Nat) : KeepsExact (Document.encodeProc k) := by
  unfold Document.encodeProc
  refine bind get fun d => ?_
  repeat' split
  all_goals exact pure _
theorem encodeTyped (e : ElementData) (t : AnnotationType) : KeepsExact (Document.encodeTyped e t) := by
  unfold Document.encodeTyped
  exact bind (ofRes _) fun s => bind (declare _ _ _ _) fun k => bind (addName _ _ _ adder_class.grows) fun ck =>
    bind (encodeProc _) fun r => pure _
theorem encodeFeature (e : ElementData) (ctx : Option Nat) : KeepsExact (Document.encodeFeature e ctx) := by
  unfold Document.encodeFeature
  split
  · exact bind (ofRes _) fun p => bind (ofRes _) fun t => bind (ofRes _) fun s => bind (declare _ _ _ _) fun k =>
      bind (addName _ _ _ adder_subclass.grows) fun ck => bind (addName _ _ _ adder_subset.grows) fun r => pure _
  · exact err _
theorem encodeLink (enc : Document.Enc) : KeepsExact (Document.encodeLink enc) := by
  unfold Document.encodeLink
  split
  · exact updDeclaration _ _
  · exact pure _
theorem encode (e : ElementData) (ctx : Option Nat) : KeepsExact (Document.encode e ctx) := by
  unfold Document.encode Document.encodeCore
  split
  · refine bind ?_ fun enc => bind get fun d => bind (encodeLink _) fun _ => pure _
    repeat' split
    · exact encodeTyped _ _
    · exact encodeFeature _ _
    · exact pure _
  · exact pure _
theorem addElem (e : ElementData) (ctx : Option Nat) : KeepsExact (Document.addElem e ctx) := by
  intro d hd
  rw [addElem_eq]
  have := encode e ctx d hd
  rcases h : Document.encode e ctx d with ⟨_ | e', d'⟩ <;> rw [h] at this <;> exact this
theorem addClass (k : Nat) (c : String) : KeepsExact (Document.addClass k c) := by
  unfold Document.addClass
  refine bind (callDeclaration _ _ (adder_class.grows c)) fun r => ?_
  split
  · exact ofRes _
  · exact err _

end KeepsExact

theorem Prim.declsExact {C : Prop} {d d' : Document} (h : Prim C d d') (hd : DeclsExact d) : DeclsExact d' := by
  cases h with
  | admin _ h _ _ _ => unfold DeclsExact; rw [h]; exact hd
  | addDeclaration dec _ => exact Store.Exact.add hd cap16 dec (fun _ _ => rfl) (fun _ _ => rfl)
  | declare t s a f => exact declare_exact hd t s a f
  | addClass k c => exact KeepsExact.addClass k c d hd
  | annotator k p _ =>
    exact KeepsExact.update hd k _ fun a _ => ⟨rfl, rfl, rfl, rfl, rfl, List.prefix_append _ _, .refl _, .refl _, .refl _⟩
  | addElem e ctx _ => exact KeepsExact.addElem e ctx d hd
  | setParent | orphan | pushElem | pushText | pushSpan | unlink | layer | addProc | chain | procParent | procPush | activate => exact hd

theorem Reachable.declsExact {X : Ext} {F : Nat} {d : Document} (hr : Reachable X F d) : DeclsExact d :=
  Steps.inv Prim.declsExact hr.steps Store.Exact.empty

end Folia
