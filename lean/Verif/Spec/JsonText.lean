import Verif.Model.JsonSax
/-
Texts for codes (C93).
-/
namespace WS.Spec.JText

/-- What the library's header says of each code of the incremental parser (wolfsentry/centijson_sax.h:86-109, but for
JSON_ERR_NOT_INITED), and the text a user should read. -/
def meaning : List (Int × String) :=
  [(0, "Success"), (-1, "Internal error"), (-2, "Out of memory"), (-4, "Syntax error"), (-5, "Mismatch in brackets"),
   (-6, "Root type not allowed by settings"), (-7, "Expected value"), (-8, "Expected key"), (-9, "Expected value or closer"),
   (-10, "Expected key or closer"), (-11, "Expected colon"), (-12, "Expected comma or closer"), (-13, "Expected EOF"),
   (-14, "Exceeded max document length"), (-15, "Exceeded max total values"), (-16, "Exceeded max nesting level"),
   (-17, "Exceeded max number length"), (-18, "Exceeded max string length"), (-19, "Exceeded max key length"),
   (-20, "Unclosed string"), (-21, "Unescaped control character"), (-22, "Invalid escape sequence"), (-23, "Invalid UTF-8")]

/-- A code's text is its own: no other code has it. -/
def Own {α : Type} (text : Int → α) (code : Int) : Prop := ∀ c, text c = text code → c = code

/-- The names of the events. -/
def typeName : Sax.JType → String
  | .null => "NULL" | .false => "FALSE" | .true => "TRUE" | .number => "NUMBER" | .string => "STRING" | .key => "KEY"
  | .arrayBeg => "ARRAY_BEG" | .arrayEnd => "ARRAY_END" | .objectBeg => "OBJECT_BEG" | .objectEnd => "OBJECT_END"

/-- The numbers of the events (wolfsentry/centijson_sax.h:70-81: an enumeration from 0 on). -/
def typeNumber : Sax.JType → Int
  | .null => 0 | .false => 1 | .true => 2 | .number => 3 | .string => 4 | .key => 5
  | .arrayBeg => 6 | .arrayEnd => 7 | .objectBeg => 8 | .objectEnd => 9

end WS.Spec.JText
