import Verif.Lemmas.Head
/-! The methods that add, move and annotate elements change elements and declarations only. -/
namespace Folia
open Document
namespace KeepsHead

theorem detachElement (c : Nat) : KeepsHead (Document.detachElement c) := by
  unfold Document.detachElement
  refine bind get fun d => ?_
  split
  · exact err _
  · refine bind (updElement _ _) fun _ => ?_
    split
    · exact updElement _ _
    · exact pure _

theorem adopt (F p c : Nat) : KeepsHead (Document.adopt F p c) := by
  unfold Document.adopt
  exact bind (updElement _ _) fun _ => postAdd _ _ _

theorem adoptAll (F p : Nat) (l : Option (List Nat)) : KeepsHead (match l with
    | some added => M.forEach (Document.adopt F p) added
    | none => Pure.pure () : M Document Unit) := by
  cases l with
  | some added => exact forEach (adopt F p) added
  | none => exact pure _

mutual
theorem addChildren (F : Nat) : ∀ e : ElementData, KeepsHead (Document.addChildren F e)
  | ⟨t, as, data, k, p⟩ => by
    rw [Document.addChildren]
    split
    · exact bind (addChildrenList F data) fun r => pure _
    · exact pure _
theorem addChildrenList (F : Nat) : ∀ l : List Data, KeepsHead (Document.addChildrenList F l)
  | [] => by rw [Document.addChildrenList]; exact pure _
  | .addElement e :: rest => by
    rw [Document.addChildrenList]
    refine bind (addChildren F e) fun r => bind (addElem _ _) fun ck => ?_
    split
    · exact bind (forEach (adopt F ck) _) fun _ => bind (addChildrenList F rest) fun rs => pure _
    · exact bind (addChildrenList F rest) fun rs => pure _
  | .text s :: rest => by rw [Document.addChildrenList]; exact bind (addChildrenList F rest) fun rs => pure _
  | .element c :: rest => by rw [Document.addChildrenList]; exact bind (addChildrenList F rest) fun rs => pure _
  | .comment s :: rest => by rw [Document.addChildrenList]; exact bind (addChildrenList F rest) fun rs => pure _
  | .spanReference c :: rest => by rw [Document.addChildrenList]; exact bind (addChildrenList F rest) fun rs => pure _
end

theorem addElement (F : Nat) (e : ElementData) : KeepsHead (Document.addElement F e) := by
  unfold Document.addElement
  exact bind (addChildren F e) fun r => addElem _ _

theorem addElementTo (F p : Nat) (e : ElementData) : KeepsHead (Document.addElementTo F p e) := by
  unfold Document.addElementTo
  refine bind (addChildren F e) fun r => bind (mapErr _ (addElem _ _)) fun ck => ?_
  split
  · exact bind (forEach (adopt F ck) _) fun _ => bind (attachElement _ _) fun _ => bind (postAdd _ _ _) fun _ => pure _
  · exact bind (attachElement _ _) fun _ => bind (postAdd _ _ _) fun _ => pure _

theorem addToLayer (F l h : Nat) (t : AnnotationType) (lt : ElementType) (s : Option String) (e : ElementData) : KeepsHead (Document.addToLayer F l h t lt s e) := by
  unfold Document.addToLayer
  refine bind (ofRes _) fun found => ?_
  split
  · exact bind (pure _) fun _ => bind (ofRes _) fun _ => addElementTo _ _ _
  · exact bind (ofRes _) fun _ => bind (addElementTo _ _ _) fun _ => bind (ofRes _) fun _ => addElementTo _ _ _

theorem annotate (F p : Nat) (e : ElementData) : KeepsHead (Document.annotate F p e) := by
  unfold Document.annotate
  refine bind (ofRes _) fun pe => ?_
  split
  · refine bind (ofRes _) fun t => bind (ofRes _) fun lt => ?_
    split
    · refine bind (ofRes _) fun s => bind get fun d => ?_
      simp only
      split
      · exact err _
      · refine bind (ofRes _) fun sel => bind (ofRes _) fun c => bind get fun d => ?_
        split
        · exact addToLayer _ _ _ _ _ _ _
        · exact err _
    · split
      · exact bind (ofRes _) fun s => addToLayer _ _ _ _ _ _ _
      · exact bind (ofRes _) fun _ => addElementTo _ _ _
  · exact bind (ofRes _) fun _ => addElementTo _ _ _

theorem annotateSpan (F : Nat) (e : ElementData) : KeepsHead (Document.annotateSpan F e) := by
  unfold Document.annotateSpan
  split
  · refine bind get fun d => ?_
    split
    · exact err _
    · exact annotate _ _ _
  · exact err _

theorem void {α : Type} {m : M Document α} (h : KeepsHead m) : KeepsHead m.void := bind h fun _ => pure _

end KeepsHead
end Folia
