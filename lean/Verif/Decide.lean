import Verif.Tree
import Verif.Samples
/-! Deciding the hypotheses of theorems for concrete samples. -/
namespace Folia

mutual
def decCleanBuilder : (e : ElementData) → Decidable (CleanBuilder e)
  | ⟨_, as, data, _, p⟩ =>
    have : Decidable (CleanData data) := decCleanData data
    have : Decidable (p = none) := inferInstance
    decidable_of_iff ((∀ a ∈ as, a.decodable = false) ∧ CleanData data ∧ p = none) (by rw [CleanBuilder])
def decCleanData : (data : List Data) → Decidable (CleanData data)
  | [] => .isTrue (by simp only [CleanData])
  | .addElement e :: rest =>
    have : Decidable (CleanBuilder e) := decCleanBuilder e
    have : Decidable (CleanData rest) := decCleanData rest
    decidable_of_iff (CleanBuilder e ∧ CleanData rest) (by rw [CleanData])
  | .text _ :: rest =>
    have : Decidable (CleanData rest) := decCleanData rest
    decidable_of_iff (CleanData rest) (by rw [CleanData])
  | .comment _ :: rest =>
    have : Decidable (CleanData rest) := decCleanData rest
    decidable_of_iff (CleanData rest) (by rw [CleanData])
  | .element _ :: _ => .isFalse (by simp only [CleanData]; exact id)
  | .spanReference _ :: _ => .isFalse (by simp only [CleanData]; exact id)
end

instance (e : ElementData) : Decidable (CleanBuilder e) := decCleanBuilder e

mutual
def decCleanProc : (p : ProcTree) → Decidable (CleanProc p)
  | .node p pending =>
    have : Decidable (CleanProcs pending) := decCleanProcs pending
    decidable_of_iff (p.processors = [] ∧ p.parent = none ∧ CleanProcs pending) (by rw [CleanProc])
def decCleanProcs : (ps : List ProcTree) → Decidable (CleanProcs ps)
  | [] => .isTrue (by simp only [CleanProcs])
  | p :: ps =>
    have : Decidable (CleanProc p) := decCleanProc p
    have : Decidable (CleanProcs ps) := decCleanProcs ps
    decidable_of_iff (CleanProc p ∧ CleanProcs ps) (by rw [CleanProcs])
end

instance (p : ProcTree) : Decidable (CleanProc p) := decCleanProc p

instance (dec : Declaration) : Decidable dec.Blank := by unfold Declaration.Blank; infer_instance

instance (ps : DocumentProperties) : Decidable (∀ p, ps.processor = some p → CleanProc p) :=
  match h : ps.processor with
  | none => .isTrue (by intro p hp; cases hp)
  | some p => decidable_of_iff (CleanProc p) ⟨fun hc _ h => by cases h; exact hc, fun hc => hc p rfl⟩

instance (d : Document) (o : Op) : Decidable (o.Clean d) := by
  cases o <;> unfold Op.Clean <;> infer_instance

def decOpsClean (F : Nat) : (os : List Op) → (d : Document) → Decidable (OpsClean F os d)
  | [], _ => .isTrue trivial
  | o :: os, d =>
    have : Decidable (OpsClean F os (o.run F d).2) := decOpsClean F os (o.run F d).2
    decidable_of_iff (o.Clean d ∧ OpsClean F os (o.run F d).2) (by rw [OpsClean])

instance (F : Nat) (os : List Op) (d : Document) : Decidable (OpsClean F os d) := decOpsClean F os d

instance (d : Document) (ids : List String) : Decidable (d.FreshIds ids) := by unfold Document.FreshIds; infer_instance
instance (d : Document) (e : ElementData) : Decidable (d.NewBuilder e) := by unfold Document.NewBuilder; infer_instance

/-- The calls of a history do not go wrong half way; a sufficient condition that can be checked. -/
def Op.tameBy (F : Nat) (d : Document) (o : Op) : Prop := o.Clean d ∧ match o with
  | .addElement e => d.NewBuilder e ∧ builderSizeList e.data = 0
  | .addElementTo p e => d.NewBuilder e ∧ (d.getElement p).isSome ∧ (o.run F d).1.isOk = true
  | .annotate _ e => d.NewBuilder e ∧ (o.run F d).1.isOk = true
  | .annotateSpan e => d.NewBuilder e ∧ (o.run F d).1.isOk = true
  | _ => True

instance (F : Nat) (d : Document) (o : Op) : Decidable (o.tameBy F d) := by
  cases o <;> unfold Op.tameBy <;> dsimp only <;> infer_instance

theorem ok_unit {r : Res Unit} (h : r.isOk = true) : r = .ok () := by
  cases r with
  | error e => cases h
  | ok u => rfl

theorem Op.tameBy.tame {F : Nat} {d : Document} {o : Op} (h : o.tameBy F d) : o.Tame F d := by
  refine Or.inr ⟨h.1, ?_⟩
  have h := h.2
  cases o <;> dsimp only at h ⊢
  · exact h
  · exact ⟨h.1, h.2.1, ok_unit h.2.2⟩
  · exact ⟨h.1, ok_unit h.2⟩
  · exact ⟨h.1, ok_unit h.2⟩

/-- The same for a history. -/
def OpsTame (F : Nat) : List Op → Document → Prop
  | [], _ => True
  | o :: os, d => o.tameBy F d ∧ OpsTame F os (o.run F d).2

def decOpsTame (F : Nat) : (os : List Op) → (d : Document) → Decidable (OpsTame F os d)
  | [], _ => .isTrue trivial
  | o :: os, d =>
    have : Decidable (OpsTame F os (o.run F d).2) := decOpsTame F os (o.run F d).2
    decidable_of_iff (o.tameBy F d ∧ OpsTame F os (o.run F d).2) (by rw [OpsTame])

instance (F : Nat) (os : List Op) (d : Document) : Decidable (OpsTame F os d) := decOpsTame F os d

theorem TameReachable.ops {F : Nat} : ∀ (os : List Op) {d : Document}, TameReachable F d → OpsTame F os d → TameReachable F (runOps F os d)
  | [], _, h, _ => h
  | o :: os, _, h, ht => TameReachable.ops os (.op o h ht.1.tame) ht.2

theorem CleanReachable.ops {X : Ext} {F : Nat} : ∀ (os : List Op) {d : Document}, CleanReachable X F d → OpsClean F os d →
    CleanReachable X F (runOps F os d)
  | [], _, h, _ => h
  | o :: os, _, h, hc => CleanReachable.ops os (.op o h hc.1) hc.2

def decElement (c : Nat) : (data : List Data) → Decidable (.element c ∈ data)
  | [] => .isFalse (by simp)
  | .element k :: rest =>
    have : Decidable (.element c ∈ rest) := decElement c rest
    decidable_of_iff (c = k ∨ .element c ∈ rest) (by simp)
  | .text _ :: rest =>
    have : Decidable (.element c ∈ rest) := decElement c rest
    decidable_of_iff (.element c ∈ rest) (by simp)
  | .comment _ :: rest =>
    have : Decidable (.element c ∈ rest) := decElement c rest
    decidable_of_iff (.element c ∈ rest) (by simp)
  | .addElement _ :: rest =>
    have : Decidable (.element c ∈ rest) := decElement c rest
    decidable_of_iff (.element c ∈ rest) (by simp)
  | .spanReference _ :: rest =>
    have : Decidable (.element c ∈ rest) := decElement c rest
    decidable_of_iff (.element c ∈ rest) (by simp)

instance (d : Document) (p c : Nat) : Decidable (d.Lists p c) :=
  match h : d.getElement p with
  | none => .isFalse (by rintro ⟨e, h1, _⟩; rw [h] at h1; cases h1)
  | some e =>
    have : Decidable (.element c ∈ e.data) := decElement c e.data
    decidable_of_iff (.element c ∈ e.data) ⟨fun h' => ⟨e, h, h'⟩, fun ⟨e', h1, h2⟩ => by rw [h] at h1; cases h1; exact h2⟩

instance (d : Document) (c p : Nat) : Decidable (d.HasParent c p) :=
  match h : d.getElement c with
  | none => .isFalse (by rintro ⟨e, h1, _⟩; rw [h] at h1; cases h1)
  | some e => decidable_of_iff (e.parent = some p) ⟨fun h' => ⟨e, h, h'⟩, fun ⟨e', h1, h2⟩ => by rw [h] at h1; cases h1; exact h2⟩

namespace Sample
theorem fresh_clean : CleanReachable X F fresh := .new (by intro p h; cases h) fresh_eq
theorem fresh_tame : TameReachable F fresh := .new (by intro p h; cases h) fresh_eq
theorem doc_tame : TameReachable F doc := .ops ops fresh_tame (by decide +kernel)
end Sample
end Folia
