import Verif.Lemmas.Pinned
/-! Reading the body of a document changes elements and declarations only. -/
namespace Folia
open Document

/-- The documents differ at most in elements and declarations. -/
def SameHead (d d' : Document) : Prop := d' = { d with elements := d'.elements, declarations := d'.declarations }

theorem SameHead.refl (d : Document) : SameHead d d := rfl
theorem SameHead.trans {a b c : Document} (h : SameHead a b) (h' : SameHead b c) : SameHead a c := by
  unfold SameHead at *
  rw [h', h]

/-- A method that changes elements and declarations only. -/
def KeepsHead {α : Type} (m : M Document α) : Prop := ∀ d, SameHead d (m d).2

namespace KeepsHead
variable {α β : Type}

theorem pure (a : α) : KeepsHead (pure a : M Document α) := fun _ => rfl
theorem err (e : ErrKind) : KeepsHead (M.err e : M Document α) := fun _ => rfl
theorem throw (e : Fault) : KeepsHead (M.throw e : M Document α) := fun _ => rfl
theorem get : KeepsHead (M.get : M Document Document) := fun _ => rfl
theorem ofRes (f : Document → Res α) : KeepsHead (M.ofRes f) := fun _ => rfl
theorem bind {m : M Document α} {f : α → M Document β} (h : KeepsHead m) (h' : ∀ a, KeepsHead (f a)) : KeepsHead (m >>= f) := by
  intro d
  rw [M.run_bind]
  have := h d
  rcases hm : m d with ⟨_ | a, d'⟩
  · rw [hm] at this; exact this
  · rw [hm] at this; exact this.trans (h' a d')
theorem mapErr {m : M Document α} (k : ErrKind) (h : KeepsHead m) : KeepsHead (M.mapErr k m) := by
  intro d
  have := h d
  unfold M.mapErr
  rcases hm : m d with ⟨f | a, d'⟩
  · rw [hm] at this; cases f <;> exact this
  · rw [hm] at this; exact this
theorem forEach {f : α → M Document Unit} (h : ∀ a, KeepsHead (f a)) : ∀ l : List α, KeepsHead (M.forEach f l)
  | [] => pure _
  | a :: l => by
    simp only [M.forEach]
    exact bind (h a) fun _ => forEach h l
theorem updElement (k : Nat) (f : ElementData → ElementData) : KeepsHead (Document.updElement k f) := fun _ => rfl
theorem updDeclaration (k : Nat) (f : Declaration → Declaration) : KeepsHead (Document.updDeclaration k f) := fun _ => rfl
theorem addDeclaration (dec : Declaration) : KeepsHead (Document.addDeclaration dec) := fun _ => rfl
theorem callDeclaration (k : Nat) (f : Declaration → Res α × Declaration) : KeepsHead (Document.callDeclaration k f) := by
  intro d
  unfold Document.callDeclaration
  split <;> rfl
theorem addName (k : Nat) (name : Res (Option String)) (f : String → Declaration → Res Nat × Declaration) :
    KeepsHead (Document.addName k name f) := by
  unfold Document.addName
  split
  · refine bind (callDeclaration _ _) fun r => ?_
    split <;> exact pure _
  · exact pure _
theorem declare (t : AnnotationType) (s a f : Option String) : KeepsHead (Document.declare t s a f) := by
  unfold Document.declare
  refine bind get fun d => ?_
  split
  · exact pure _
  · refine bind get fun d => ?_
    have hrest : ∀ k : Nat, KeepsHead (M.get >>= fun d : Document => (match d.activeProcessor with
        | some p => Document.updDeclaration k (linkProcessor p) >>= fun _ => Pure.pure k
        | none => Pure.pure k : M Document Nat)) := by
      intro k
      refine bind get fun d => ?_
      split
      · exact bind (updDeclaration _ _) fun _ => pure _
      · exact pure _
    split
    · exact hrest _
    · exact bind (addDeclaration _) hrest
theorem encodeProc (k : Nat) : KeepsHead (Document.encodeProc k) := by
  unfold Document.encodeProc
  refine bind get fun d => ?_
  repeat' split
  all_goals exact pure _
theorem encodeTyped (e : ElementData) (t : AnnotationType) : KeepsHead (Document.encodeTyped e t) := by
  unfold Document.encodeTyped
  exact bind (ofRes _) fun s => bind (declare _ _ _ _) fun k => bind (addName _ _ _) fun ck => bind (encodeProc _) fun r => pure _
theorem encodeFeature (e : ElementData) (ctx : Option Nat) : KeepsHead (Document.encodeFeature e ctx) := by
  unfold Document.encodeFeature
  split
  · exact bind (ofRes _) fun p => bind (ofRes _) fun t => bind (ofRes _) fun s => bind (declare _ _ _ _) fun k =>
      bind (addName _ _ _) fun ck => bind (addName _ _ _) fun r => pure _
  · exact err _
theorem encodeLink (enc : Document.Enc) : KeepsHead (Document.encodeLink enc) := by
  unfold Document.encodeLink
  split
  · exact updDeclaration _ _
  · exact pure _
theorem encode (e : ElementData) (ctx : Option Nat) : KeepsHead (Document.encode e ctx) := by
  unfold Document.encode Document.encodeCore
  split
  · refine bind ?_ fun enc => bind get fun d => bind (encodeLink _) fun _ => pure _
    repeat' split
    · exact encodeTyped _ _
    · exact encodeFeature _ _
    · exact pure _
  · exact pure _
theorem addElem (e : ElementData) (ctx : Option Nat) : KeepsHead (Document.addElem e ctx) := by
  unfold Document.addElem
  split
  · exact bind (encode _ _) fun e => fun _ => rfl
  · exact bind (pure _) fun e => fun _ => rfl
theorem addClass (k : Nat) (c : String) : KeepsHead (Document.addClass k c) := by
  unfold Document.addClass
  refine bind (callDeclaration _ _) fun r => ?_
  split
  · exact ofRes _
  · exact err _
theorem attachElement (p c : Nat) : KeepsHead (Document.attachElement p c) := by
  unfold Document.attachElement
  refine bind get fun d => ?_
  split
  · exact err _
  · refine bind get fun d => ?_
    split
    · exact err _
    · refine bind (updElement _ _) fun _ => bind (updElement _ _) fun _ => ?_
      split
      · exact updElement _ _
      · exact pure _
theorem postAdd (F key : Nat) (stack : Option (List Nat)) : KeepsHead (Document.postAdd F key stack) := by
  unfold Document.postAdd
  refine bind get fun d => ?_
  split
  · exact err _
  · split
    · split
      · exact err _
      · refine bind (ofRes _) fun r => ?_
        split
        · exact err _
        · refine bind get fun d => ?_
          split
          · exact err _
          · refine bind get fun d => ?_
            split
            · exact throw _
            · exact updElement _ _
    · split
      · refine bind (ofRes _) fun r => ?_
        split
        · exact updElement _ _
        · exact pure _
      · exact pure _
theorem applyDeclare (ts : AnnotationType × Option String) : KeepsHead (Document.applyDeclare ts) := by
  unfold Document.applyDeclare
  refine bind (declare _ _ _ _) fun k => ?_
  split
  · exact bind (addClass _ _) fun _ => pure _
  · exact pure _
theorem applyProperties {ps : DocumentProperties} (h : ps.processor = none) : KeepsHead (Document.applyProperties ps) := by
  unfold Document.applyProperties
  rw [h]
  exact bind (pure _) fun _ => forEach applyDeclare _
theorem addShortcuts (key : Nat) (l : List ElementData) : KeepsHead (Folia.addShortcuts key l) := by
  unfold Folia.addShortcuts
  exact forEach (fun c => bind (addElem _ _) fun ck => attachElement _ _) l
theorem pushData (stack : List Nat) (x : Data) : KeepsHead (Folia.pushData stack x) := by
  unfold Folia.pushData
  split
  · exact updElement _ _
  · exact pure _
theorem emptyTag (X : Ext) (F : Nat) (tag : String) (attrs : List RAttr) (stack : List Nat) : KeepsHead (Folia.emptyTag X F tag attrs stack) := by
  unfold Folia.emptyTag
  refine bind (ofRes _) fun r => bind (mapErr _ (addElem _ _)) fun key => ?_
  split
  · exact bind (attachElement _ _) fun _ => bind (addShortcuts _ _) fun _ => postAdd _ _ _
  · exact bind (addShortcuts _ _) fun _ => postAdd _ _ _
theorem startTag (X : Ext) (tag : String) (attrs : List RAttr) (stack : List Nat) : KeepsHead (Folia.startTag X tag attrs stack) := by
  unfold Folia.startTag
  exact bind (ofRes _) fun r => bind (mapErr _ (addElem _ _)) fun key => bind (addShortcuts _ _) fun _ => pure _
theorem closeTag (F : Nat) (tag : String) (key : Nat) (stack : List Nat) : KeepsHead (Folia.closeTag F tag key stack) := by
  unfold Folia.closeTag
  refine bind (postAdd _ _ _) fun _ => bind get fun d => ?_
  repeat' split
  · exact err _
  · exact err _
  · exact err _
  · exact attachElement _ _
  · exact pure _
theorem parseElements (X : Ext) (F : Nat) : ∀ (evs : List REvent) (stack : List Nat), KeepsHead (Folia.parseElements X F evs stack)
  | [], _ => by unfold Folia.parseElements; exact pure _
  | .error :: _, _ => by unfold Folia.parseElements; exact err _
  | .empty ns tag attrs :: rest, stack => by
    unfold Folia.parseElements
    split
    · exact bind (emptyTag X F tag attrs stack) fun _ => parseElements X F rest stack
    · exact parseElements X F rest stack
  | .start ns tag attrs :: rest, stack => by
    unfold Folia.parseElements
    split
    · exact bind (startTag X tag attrs stack) fun _ => parseElements X F rest _
    · exact parseElements X F rest stack
  | .endTag ns tag :: rest, stack => by
    unfold Folia.parseElements
    split
    · split
      · exact bind (closeTag F tag _ _) fun _ => parseElements X F rest _
      · exact pure _
    · exact parseElements X F rest stack
  | .text s :: rest, stack => by
    unfold Folia.parseElements
    split
    · exact err _
    · split
      · exact bind (pushData _ _) fun _ => parseElements X F rest stack
      · exact parseElements X F rest stack
  | .cdata s :: rest, stack => by
    unfold Folia.parseElements
    split
    · exact bind (pushData _ _) fun _ => parseElements X F rest stack
    · exact parseElements X F rest stack
  | .comment s :: rest, stack => by
    unfold Folia.parseElements
    split
    · exact bind (pushData _ _) fun _ => parseElements X F rest stack
    · exact parseElements X F rest stack
  | .other :: rest, stack => by
    unfold Folia.parseElements
    exact parseElements X F rest stack
theorem parseRest (X : Ext) (F : Nat) {ps : DocumentProperties} (h : ps.processor = none) (body : ElementData) (evs : List REvent) :
    KeepsHead (Folia.parseRest X F ps body evs) := by
  unfold Folia.parseRest
  refine bind (mapErr _ (addElem _ _)) fun _ => bind (mapErr _ (applyProperties h)) fun _ => bind get fun d => ?_
  split
  · exact err _
  · exact parseElements _ _ _ _

end KeepsHead
end Folia
