import Verif.Model.Basic
/-
The JSON library's texts for codes and types (src/json/centijson_sax.c:1485-1536, src/json/centijson_dom.c:713-727).
-/
namespace WS.JText

/-- What a call gives: a text, or a read outside the array. -/
inductive Ans where
  | text (s : String)
  | oob
  deriving DecidableEq, Repr

/-- `unexpected_code` (centijson_sax.c:1487). -/
def unexpected : String := "Unexpected error code"

/-- `errs` (centijson_sax.c:1488-1515). -/
def errs : List String :=
  ["Success",
   "Internal error",
   "Out of memory",
   unexpected,
   "Syntax error",
   "Mismatch in brackets",
   "Root type not allowed by settings",
   "Expected value",
   "Expected key",
   "Expected value or closer",
   "Expected key or closer",
   "Expected colon",
   "Expected comma or closer",
   "Expected EOF",
   "Exceeded max document length",
   "Exceeded max total values",
   "Exceeded max nesting level",
   "Exceeded max number length",
   "Exceeded max string length",
   "Exceeded max key length",
   "Unclosed string",
   "Unescaped control character",
   "Invalid escape sequence",
   "Invalid UTF-8"]

/-- `errs[-err_code]`; a negative index or one past the end is outside the array. -/
def entry (a : List String) (i : Int) : Ans :=
  if i < 0 then .oob
  else match a[i.toNat]? with
    | some t => .text t
    | none => .oob

/-- `json_error_str` (centijson_sax.c:1485-1520). -/
def errorStr (code : Int) : Ans :=
  if -(errs.length : Int) < code ∧ code ≤ 0 then entry errs (-code) else .text unexpected

/-- `unexpected_code` and `errs` of `json_dom_error_str` (centijson_dom.c:715-719). -/
def domUnexpected : String := "Unexpected DOM error code"
def domErrs : List String := ["Duplicate key"]

/-- `json_dom_error_str` (centijson_dom.c:713-727). -/
def domErrorStr (code : Int) : Ans :=
  if code > -1000 then errorStr code
  else
    let code := code + 1000
    if -(domErrs.length : Int) < code ∧ code ≤ 0 then entry domErrs (-code) else .text domUnexpected

/-- `json_type_str` (centijson_sax.c:1521-1536); the numbers are those of `JSON_TYPE` (wolfsentry/centijson_sax.h:70-81). -/
def typeStr (t : Int) : String :=
  if t = 0 then "NULL"
  else if t = 1 then "FALSE"
  else if t = 2 then "TRUE"
  else if t = 3 then "NUMBER"
  else if t = 4 then "STRING"
  else if t = 5 then "KEY"
  else if t = 6 then "ARRAY_BEG"
  else if t = 7 then "ARRAY_END"
  else if t = 8 then "OBJECT_BEG"
  else if t = 9 then "OBJECT_END"
  else "Unexpected type"

end WS.JText
