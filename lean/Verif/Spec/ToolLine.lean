import Verif.Spec.FlagText

/-!
# What a command line of the tools says

Independent of the parser: settings as a user writes them, followed by the names of files.
-/
namespace Verif.Spec.ToolLine
open Verif.Spec.FlagText (Signed)

/-- texts -/
abbrev Str := List Char

/-- a setting as it is written: with one or two minus signs, and its value behind '=' or as the next word -/
structure Setting where
  two : Bool
  apart : Bool
  name : Str
  value : Str

/-- one or two minus signs, in front of a text -/
def dashes (two : Bool) (s : Str) : Str := if two then '-' :: '-' :: s else '-' :: s

/-- its words on the command line -/
def Setting.words (s : Setting) : List Str :=
  if s.apart then [dashes s.two s.name, s.value] else [dashes s.two (s.name ++ '=' :: s.value)]

/-- a text that says a number of 64 bits -/
def SaysNumber (v : Str) (i : Int) : Prop := Signed v i ∧ -2 ^ 63 ≤ i ∧ i < 2 ^ 63

/-- a setting that a tool with these flags knows and whose value can be read -/
def Setting.Fine (numbers texts : List String) (s : Setting) : Prop :=
  (∃ n ∈ texts, s.name = n.toList) ∨ ((∃ n ∈ numbers, s.name = n.toList) ∧ ∃ i, SaysNumber s.value i)

/-- the last setting of a name has this value -/
def Last (l : List Setting) (n : String) (v : Str) : Prop :=
  ∃ before s after, l = before ++ s :: after ∧ s.name = n.toList ∧ s.value = v ∧ ∀ x ∈ after, x.name ≠ n.toList

/-- there is no setting of a name -/
def Absent (l : List Setting) (n : String) : Prop := ∀ x ∈ l, x.name ≠ n.toList

/-- the text set under a name; the empty text if there is none -/
def Text (l : List Setting) (n : String) (v : Str) : Prop := Last l n v ∨ (Absent l n ∧ v = [])

/-- the number set under a name; the default if there is none -/
def Number (l : List Setting) (n : String) (default i : Int) : Prop := (∃ v, Last l n v ∧ SaysNumber v i) ∨ (Absent l n ∧ i = default)

/-- a word that is no setting: it does not begin with a minus sign, or is shorter than two characters -/
def Plain (w : Str) : Prop := w.length < 2 ∨ w.head? ≠ some '-'

/-- what is left when the settings are over: all words from the first plain one on, or those behind "--" -/
def Leaves (rest left : List Str) : Prop :=
  (rest = [] ∧ left = []) ∨ (∃ w more, rest = w :: more ∧ Plain w ∧ left = rest) ∨ rest = "--".toList :: left

/-- a command line: settings, then names -/
def Line (numbers texts : List String) (words : List Str) (l : List Setting) (left : List Str) : Prop :=
  ∃ rest, words = l.flatMap Setting.words ++ rest ∧ (∀ s ∈ l, s.Fine numbers texts) ∧ Leaves rest left

end Verif.Spec.ToolLine
