import Verif.Spec.Text
import Verif.Spec.Pitch
import Verif.Spec.RenderError

/-! # Vocabulary: what a message says -/
set_option autoImplicit false
namespace Klavier
namespace Spec

instance (c : Char) : Decidable (IsDigit c) := inferInstanceAs (Decidable (_ ∧ _))

/-- Reading on: `minus` if a minus sign came last before the digits read, which are
worth `cur` -/
def scanNumbers : Bool → Option Nat → List Char → List Int
  | minus, cur, c :: r =>
    if IsDigit c then scanNumbers minus (some (cur.getD 0 * 10 + (c.toNat - '0'.toNat))) r
    else (cur.map (fun n => if minus then -(n : Int) else n)).toList ++ scanNumbers (c == '-') none r
  | minus, cur, [] => (cur.map (fun n => if minus then -(n : Int) else n)).toList

/-- The numbers that stand in a text, in order: the longest runs of digits, negative
after a minus sign -/
def numbersIn (s : List Char) : List Int := scanNumbers false none s

/-- The ticks and ending numbers an error is about, in the order of its fields -/
def numbersOf : RenderRegionError → List Int
  | .duplicatedSegno a b | .duplicatedDsDc a b | .duplicatedFine a b | .codaWithoutDsDc a b | .fineNotAfterSegno a b => [a, b]
  | .moreThanTwoCodas a b c | .codaAfterFine a b c => [a, b, c]
  | .invalidRegionIndex t a e => [t, a.value, e.value]
  | .duplicatedRepeatStart t | .orphanRepeatEnd t | .fineWithoutDsDc t | .segnoWithoutDs t | .noRepeatEnd t
  | .repeatInVariation t | .variationNotClosed t | .repeatOrVariationOnDc t | .repeatOrVariationOnDs t | .noSegnoForDs t
  | .onlyOneCoda t | .dcDsWhileRepeat t | .dcDsWhileVariation t | .segnoWhileVariation t => [t]

/-- What a pitch error says is so: the pitch it names has the number it gives, which is
below 0 or above 127; or the staff position it gives is none -/
def TellsTruth : PitchError → Prop
  | .tooLow s o a v => midi s o a = v ∧ v < 0
  | .tooHigh s o a v => midi s o a = v ∧ 127 < v
  | .invalidScoreOffset v => v < 0 ∨ 74 < v

end Spec
end Klavier
