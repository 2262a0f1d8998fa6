import Verif.Spec.History
/-
  Calls that succeed have initialized the bit layer.
-/
namespace Semnet
open Spec

/-- if the program ends with success, the layer (now `m`) has been initialized -/
def FillsAt {α : Type} : Go α → Layer → Prop
  | .ok _, m => m.isInitialized = true
  | .op _ k, m => ∀ r, FillsAt (k r) m
  | .getMem k, m => FillsAt (k m) m
  | .setMem u k, m => FillsAt k (m.set u)
  | _, _ => True

def Fills {α : Type} (p : Go α) : Prop := ∀ m, FillsAt p m

theorem set_kept {m : Layer} (u : Assign) (h : m.isInitialized = true) : (m.set u).isInitialized = true := by
  cases u with
  | isInitialized => rfl
  | _ => exact h

theorem FillsAt.of {α : Type} : ∀ (p : Go α) {m : Layer}, m.isInitialized = true → FillsAt p m := by
  intro p
  induction p with
  | ok a => exact fun h => h
  | op o k ih => exact fun h r => ih r h
  | getMem k ih => exact fun h => ih _ h
  | setMem u k ih => exact fun h => ih (set_kept u h)
  | _ => exact fun _ => trivial

theorem FillsAt.bind {α β : Type} {f : α → Go β} : ∀ {p : Go α} {m : Layer}, FillsAt p m → FillsAt (p >>= f) m := by
  intro p
  induction p with
  | ok a => exact fun h => .of _ h
  | op o k ih => exact fun h r => ih r (h r)
  | getMem k ih => exact fun h => ih _ h
  | setMem u k ih => exact fun h => ih h
  | _ => exact fun _ => trivial

theorem FillsAt.tail {α β : Type} {f : α → Go β} (hf : ∀ a, Fills (f a)) : ∀ (p : Go α) (m : Layer), FillsAt (p >>= f) m := by
  intro p
  induction p with
  | ok a => exact fun m => hf a m
  | op o k ih => exact fun m r => ih r m
  | getMem k ih => exact fun m => ih m m
  | setMem u k ih => exact fun m => ih _
  | _ => exact fun _ => trivial

namespace Fills

theorem bind {α β : Type} {p : Go α} {f : α → Go β} (h : Fills p) : Fills (p >>= f) := fun m => (h m).bind

theorem tail {α β : Type} {p : Go α} {f : α → Go β} (hf : ∀ a, Fills (f a)) : Fills (p >>= f) := FillsAt.tail hf p

theorem err {α : Type} (e : Err) : Fills (Go.err e : Go α) := fun _ => trivial

theorem assigned : Fills (Go.assign .isInitialized) := fun _ => rfl

theorem fill : Fills Bit.fill := by
  unfold Bit.fill
  refine .tail fun _ => .tail fun ids => ?_
  split
  · exact .tail fun _ => .tail fun _ => .tail fun _ => .tail fun _ => .tail fun _ => .tail fun _ => .tail fun _ =>
      .tail fun _ => assigned
  · exact .tail fun _ => .tail fun _ => .tail fun _ => .tail fun _ => assigned
  · exact err _

theorem init : Fills Bit.init := by
  refine bind fun m => ?_
  show FillsAt (if m.isInitialized = true then pure () else Bit.fill) m
  by_cases hm : m.isInitialized = true
  · rw [if_pos hm]; exact hm
  · rw [if_neg hm]; exact fill m

theorem character (r : Rune) : Fills (Character.provide r) := by
  unfold Character.provide
  split
  · exact err _
  · split
    · exact fun _ => trivial
    · exact bind (bind (bind init))

theorem word (fuel : Nat) (s : GoStr) : Fills (Word.provide fuel s) := by
  unfold Word.provide
  split
  · exact err _
  · exact bind (bind (character _))

theorem phrase (fuel : Nat) (s : GoStr) : Fills (Phrase.provide fuel s) := by
  unfold Phrase.provide
  split
  · exact err _
  · exact bind (bind (word _ _))

theorem detail (fuel : Nat) (o p : GoStr) : Fills (Detail.provide fuel o p) := bind (phrase _ _)

theorem rune (fuel : Nat) (a : CharAgg) : Fills (Character.extract fuel a) :=
  bind (tail fun _ => tail fun _ => bind (bind init))

theorem wordText (fuel : Nat) (e : WordE) : Fills (Word.extract fuel e) :=
  bind (tail fun _ => tail fun _ => rune _ _)

theorem phraseText (fuel : Nat) (e : PhraseE) : Fills (Phrase.extract fuel e) :=
  bind (tail fun _ => tail fun _ => wordText _ _)

theorem texts (fuel : Nat) (r : RemE) : Fills (Remark.getObjectAndProperty fuel r) :=
  tail fun _ => tail fun _ => tail fun _ => tail fun _ => bind (phraseText _ _)

theorem story (fuel : Nat) (r : RemE) : Fills (Output.getStory fuel r) := by
  refine tail fun r => ?_
  cases fuel with
  | zero => exact fun _ => trivial
  | succ n => exact bind (texts _ _)

theorem createStory (fuel : Nat) (o p : GoStr) : Fills (Graph.createStory fuel o p) :=
  tail fun _ => tail fun _ => tail fun _ => bind (detail _ _ _)

theorem addRemark (fuel : Nat) (r : RemE) (p : GoStr) : Fills (Remark.addRemarkToFact fuel r p) :=
  tail fun _ => tail fun _ => tail fun _ => tail fun _ => tail fun _ => tail fun _ => bind (detail _ _ _)

theorem addFact (fuel : Nat) (r : RemE) (o p : GoStr) : Fills (Remark.addFactToStory fuel r o p) :=
  tail fun _ => tail fun _ => tail fun _ => bind (detail _ _ _)

theorem addChild (fuel : Nat) (r : RemE) (o p : GoStr) : Fills (Remark.createChildStory fuel r o p) :=
  tail fun _ => tail fun _ => tail fun _ => bind (detail _ _ _)

end Fills

/-- if the program ends with a new remark, the layer (now `m`) has been initialized -/
def MakesAt : Go (Option RemE) → Layer → Prop
  | .ok r, m => r ≠ none → m.isInitialized = true
  | .op _ k, m => ∀ r, MakesAt (k r) m
  | .getMem k, m => MakesAt (k m) m
  | .setMem u k, m => MakesAt k (m.set u)
  | _, _ => True

theorem FillsAt.makes : ∀ {p : Go (Option RemE)} {m : Layer}, FillsAt p m → MakesAt p m := by
  intro p
  induction p with
  | ok a => exact fun h _ => h
  | op o k ih => exact fun h r => ih r (h r)
  | getMem k ih => exact fun h => ih _ h
  | setMem u k ih => exact fun h => ih h
  | _ => exact fun _ => trivial

theorem makes_none {α : Type} : ∀ (p : Go α) (m : Layer), MakesAt (p >>= fun _ => pure none) m := by
  intro p
  induction p with
  | ok a => exact fun _ h => absurd rfl h
  | op o k ih => exact fun m r => ih r m
  | getMem k ih => exact fun m => ih m m
  | setMem u k ih => exact fun m => ih _
  | _ => exact fun _ => trivial

theorem makes_prog (fuel : Nat) (log : List Entry) (c : Call) (m : Layer) : MakesAt (c.prog fuel log) m := by
  have nil : MakesAt (pure none) m := fun h => absurd rfl h
  cases c with
  | createStory o p => exact (Fills.createStory fuel o p).bind m |>.makes
  | addRemark h p =>
    simp only [Call.prog]
    split
    · exact nil
    · exact (Fills.addRemark fuel _ p).bind m |>.makes
  | addFact h o p =>
    simp only [Call.prog]
    split
    · exact nil
    · exact (Fills.addFact fuel _ o p).bind m |>.makes
  | addChild h o p =>
    simp only [Call.prog]
    split
    · exact nil
    · exact (Fills.addChild fuel _ o p).bind m |>.makes
  | query h q =>
    simp only [Call.prog]
    split
    · exact nil
    · exact makes_none _ m
  | getRemark i => exact makes_none _ m

theorem run_fills {α : Type} {cfg : Cfg} : ∀ (p : Go α) {f : Nat → Fate} {w w' : World} {a : α}, FillsAt p w.mem →
    p.run cfg f w = (.ok a, w') → w'.mem.isInitialized = true := by
  intro p
  induction p with
  | ok a => intro f w w' b h e; cases e; exact h
  | err e => intro f w w' b h e; cases e
  | panic => intro f w w' b h e; cases e
  | spin => intro f w w' b h e; cases e
  | op o k ih =>
    intro f w w' b h e
    simp only [Go.run] at e
    split at e <;> exact ih _ (by exact h _) e
  | getMem k ih => intro f w w' b h e; exact ih _ (by exact h) e
  | setMem u k ih => intro f w w' b h e; exact ih (by exact h) e

theorem run_makes {cfg : Cfg} : ∀ (p : Go (Option RemE)) {f : Nat → Fate} {w w' : World} {r : RemE}, MakesAt p w.mem →
    p.run cfg f w = (.ok (some r), w') → w'.mem.isInitialized = true := by
  intro p
  induction p with
  | ok a => intro f w w' b h e; cases e; exact h (fun h => by cases h)
  | err e => intro f w w' b h e; cases e
  | panic => intro f w w' b h e; cases e
  | spin => intro f w w' b h e; cases e
  | op o k ih =>
    intro f w w' b h e
    simp only [Go.run] at e
    split at e <;> exact ih _ (by exact h _) e
  | getMem k ih => intro f w w' b h e; exact ih _ (by exact h) e
  | setMem u k ih => intro f w w' b h e; exact ih (by exact h) e

end Semnet
