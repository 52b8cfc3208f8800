import Verif.Model.Cron
/-!
# Parsing and printing of cron fields (/repo/asyncz/triggers/cron/{expressions,fields,trigger}.py)

Text is a list of characters.  Simplification: `\d`, `\w`, `[a-z]`, `str.lower` and `str.strip` are those
of ASCII.  Every `ValueError` (pydantic's `ValidationError` included) is `none`.
-/
namespace Asyncz
namespace Cron

/-- Strings (triggers/cron/fields.py:69). -/
abbrev Text := List Char

/-- `\d` of the patterns (triggers/cron/expressions.py:21,65-67). -/
def isDigit (c : Char) : Bool := '0' ≤ c && c ≤ '9'
/-- `A`-`Z`, which `lower()` changes (triggers/cron/expressions.py:167,211). -/
def isUpper (c : Char) : Bool := 'A' ≤ c && c ≤ 'Z'
/-- `[a-z]` with IGNORECASE (triggers/cron/expressions.py:152-155,197-199). -/
def isLetter (c : Char) : Bool := ('a' ≤ c && c ≤ 'z') || isUpper c
/-- `\w`.  (triggers/cron/expressions.py:240-243) -/
def isWord (c : Char) : Bool := isLetter c || isDigit c || c == '_'
/-- What `str.strip` removes.  (triggers/cron/fields.py:69) -/
def isBlank (c : Char) : Bool := c == ' ' || c == '\t' || c == '\n' || c == '\r' || c == '\x0b' || c == '\x0c'

/-- `c.lower()`.  (triggers/cron/expressions.py:167) -/
def lowerC (c : Char) : Char := if isUpper c then Char.ofNat (c.toNat + 32) else c
/-- `s.lower()`.  (triggers/cron/expressions.py:167,211,248,253) -/
def lower (s : Text) : Text := s.map lowerC

/-- `int(s)` for a string of digits.  (`to_int`, /repo/asyncz/utils.py:44-51) -/
def natOf (s : Text) : Nat := s.foldl (fun n c => n * 10 + (c.toNat - 48)) 0

/-- The digit of a number below 10.  (triggers/cron/expressions.py:55-58) -/
def digit (n : Nat) : Char := Char.ofNat (48 + n)

/-- `str(n)`.  (triggers/cron/expressions.py:55-58) -/
def showNat (n : Nat) : Text := if n < 10 then [digit n] else showNat (n / 10) ++ [digit (n % 10)]
decreasing_by omega

/-- `$`: the end, or just before a final newline.  (triggers/cron/expressions.py:21) -/
def atEnd : Text → Bool
  | [] => true
  | c :: cs => c == '\n' && cs.isEmpty

/-- `(?:c(X+))?` for a class `X` of characters not containing `c`: the group, if it matches, and the
rest.  (triggers/cron/expressions.py:21,65-67) -/
def optGroup (c : Char) (X : Char → Bool) (s : Text) : Option Text × Text :=
  match s with
  | [] => (none, [])
  | a :: rest =>
    if a = c ∧ (rest.takeWhile X).isEmpty = false then (some (rest.takeWhile X), rest.dropWhile X)
    else (none, a :: rest)

/-- A compiled expression and its `step` argument checked (`step: Optional[int] = Field(gt=0)`,
expressions.py:22). -/
def posStep (step : Option Nat) : Bool :=
  match step with
  | none => true
  | some n => 0 < n

/-- `AllExpression.regex.match(expr)` and the constructor (expressions.py:20-26):
`\*(?:/(?P<step>\d+))?$`.  Outer `none`: no match; inner `none`: `ValueError`. -/
def parseAll (s : Text) : Option (Option Expr) :=
  match s with
  | [] => none
  | a :: rest =>
    if a = '*' then
      let p := optGroup '/' isDigit rest
      if atEnd p.2 then
        let step := p.1.map natOf
        some (if posStep step then some (.all step) else none)
      else none
    else none

/-- The constructor of `RangeExpression` (expressions.py:70-90). -/
def mkRange (first : Nat) (last step : Option Nat) : Option Expr :=
  if posStep step then
    let last := if last = none ∧ step = none then some first else last
    match last with
    | some l => if first > l then none else some (.range first (some l) step)
    | none => some (.range first none step)
  else none

/-- `RangeExpression.regex.match(expr)` and the constructor (expressions.py:65-90):
`(?P<first>\d+)(?:-(?P<last>\d+))?(?:/(?P<step>\d+))?$` -/
def parseRange (s : Text) : Option (Option Expr) :=
  let first := s.takeWhile isDigit
  if first.isEmpty then none
  else
    let p := optGroup '-' isDigit (s.dropWhile isDigit)
    let q := optGroup '/' isDigit p.2
    if atEnd q.2 then some (mkRange (natOf first) (p.1.map natOf) (q.1.map natOf)) else none

/-- `MONTHS`, `WEEKDAYS` and `OPTIONS` (constants.py:32-34) -/
def months : List Text :=
  ["jan".toList, "feb".toList, "mar".toList, "apr".toList, "may".toList, "jun".toList, "jul".toList,
   "aug".toList, "sep".toList, "oct".toList, "nov".toList, "dec".toList]
/-- `WEEKDAYS` (triggers/cron/constants.py:32). -/
def weekdays : List Text :=
  ["mon".toList, "tue".toList, "wed".toList, "thu".toList, "fri".toList, "sat".toList, "sun".toList]
/-- `OPTIONS` (triggers/cron/constants.py:34). -/
def options : List Text :=
  ["1st".toList, "2nd".toList, "3rd".toList, "4th".toList, "5th".toList, "last".toList]

/-- `names.index(name.lower())`, `none` for `ValueError`.  (triggers/cron/expressions.py:167,211,248) -/
def indexOf (names : List Text) (name : Text) : Option Nat := names.findIdx? (fun n => n == lower name)

/-- The constructors of `MonthRangeExpression` and `WeekdayRangeExpression` (expressions.py:157-185,
204-228): `base` is 1 for months, 0 for weekdays, `mk` builds the expression. -/
def mkNames (names : List Text) (base : Nat) (mk : Nat → Nat → Expr) (first : Text) (last : Option Text) :
    Option Expr :=
  match indexOf names first with
  | none => none
  | some i =>
    match last with
    | none => some (mk (i + base) (i + base))
    | some l => match indexOf names l with
      | none => none
      | some j => if i + base > j + base then none else some (mk (i + base) (j + base))

/-- `regex.match` of the two name classes (expressions.py:152-154,200-202):
`(?P<first>[a-z]+)(?:-(?P<last>[a-z]+))?` ignoring case, not anchored at the end. -/
def parseNames (names : List Text) (base : Nat) (mk : Nat → Nat → Expr) (s : Text) : Option (Option Expr) :=
  let first := s.takeWhile isLetter
  if first.isEmpty then none
  else some (mkNames names base mk first (optGroup '-' isLetter (s.dropWhile isLetter)).1)

/-- Is `p` a prefix of `s`, ignoring case?.  (triggers/cron/expressions.py:240-243) -/
def hasPrefix (p s : Text) : Bool := lower (s.take p.length) == p

/-- `WeekdayPositionExpression` (expressions.py:240-257):
`(?P<option_name>1st|...|last) +(?P<weekday_name>(?:\d+|\w+))` ignoring case, not anchored at the end. -/
def parsePos (s : Text) : Option (Option Expr) :=
  match options.findIdx? (fun o => hasPrefix o s) with
  | none => none
  | some i =>
    let rest := s.drop (options.getD i []).length
    let word := rest.dropWhile (· == ' ')
    if (rest.takeWhile (· == ' ')).isEmpty then none
    else if (word.takeWhile isDigit).isEmpty = false then some none
    else if (word.takeWhile isWord).isEmpty then none
    else some ((indexOf weekdays (word.takeWhile isWord)).map (fun w => .weekdayPos i w))

/-- `LastDayOfMonthExpression` (expressions.py:289-293): `last` ignoring case, not anchored. -/
def parseLast (s : Text) : Option (Option Expr) :=
  if hasPrefix "last".toList s then some (some .lastDay) else none

/-- `validate_range` (expressions.py:28-34,92-108); `self.last or MAX_VALUES[...]` takes the maximum when
`last` is 0. -/
def validRange (f : FieldName) : Expr → Bool
  | .all step => stepOk step (maxValue f - minValue f)
  | .range a b step => stepOk step (maxValue f - minValue f) && rangeOk a b step
  | .monthRange a b => rangeOk a (some b) none
  | .weekdayRange a b => rangeOk a (some b) none
  | .weekdayPos _ _ => true
  | .lastDay => true
where
  /-- `not (self.step and self.step > value_range)` -/
  stepOk (step : Option Nat) (range : Int) : Bool :=
    match step with
    | none => true
    | some n => n = 0 || decide ((n : Int) ≤ range)
  rangeOk (a : Nat) (b step : Option Nat) : Bool :=
    decide (minValue f ≤ a) &&
    (match b with | none => true | some l => decide ((l : Int) ≤ maxValue f)) &&
    stepOk step ((match b with | none => maxValue f | some 0 => maxValue f | some l => (l : Int)) - a)

/-- The `compilers` of each field class, in order (fields.py:28,42-44,94-117; trigger.py:93-102). -/
def compilers : FieldName → List (Text → Option (Option Expr))
  | .month => [parseAll, parseRange, parseNames months 1 .monthRange]
  | .dayOfWeek => [parseAll, parseRange, parseNames weekdays 0 .weekdayRange]
  | .day => [parseAll, parseRange, parsePos, parseLast]
  | _ => [parseAll, parseRange]

/-- `compile_expression` (fields.py:72-87): the first class whose regex matches. -/
def compileWith (f : FieldName) (s : Text) : List (Text → Option (Option Expr)) → Option Expr
  | [] => none
  | p :: ps => match p s with
    | none => compileWith f s ps
    | some none => none
    | some (some e) => if validRange f e then some e else none

/-- `BaseField.compile_expression`.  (triggers/cron/fields.py:72-85) -/
def compile1 (f : FieldName) (s : Text) : Option Expr := compileWith f s (compilers f)

/-- Splitting at commas.  (triggers/cron/fields.py:19,69) -/
def splitComma : Text → List Text
  | [] => [[]]
  | c :: cs => if c = ',' then [] :: splitComma cs
    else match splitComma cs with
      | [] => [[c]]
      | p :: ps => (c :: p) :: ps

/-- `str.lstrip` (triggers/cron/fields.py:69). -/
def trimLeft (p : Char → Bool) (s : Text) : Text := s.dropWhile p
/-- `str.rstrip` (triggers/cron/fields.py:69). -/
def trimRight (p : Char → Bool) (s : Text) : Text := (s.reverse.dropWhile p).reverse

/-- `re.compile(" *, *").split(str(exprs).strip())` (fields.py:19,69): the spaces around each comma
belong to the separator. After `strip` there are none at the two ends. -/
def pieces (s : Text) : List Text :=
  (splitComma (trimRight isBlank (trimLeft isBlank s))).map
    (fun p => trimRight (· == ' ') (trimLeft (· == ' ') p))

/-- `compile_expressions` (fields.py:66-70) -/
def compileAll (f : FieldName) : List Text → Option (List Expr)
  | [] => some []
  | p :: ps => match compile1 f p with
    | none => none
    | some e => match compileAll f ps with
      | none => none
      | some es => some (e :: es)

/-- `BaseField(name, exprs)`: the compiled expressions, or `none` for `ValueError`.
(triggers/cron/fields.py:66-70) -/
def compileField (f : FieldName) (s : Text) : Option (List Expr) := compileAll f (pieces s)

/-- The two parts of `RangeExpression.__str__` (expressions.py:138-147). -/
def rangeText (a : Nat) : Option Nat → Text
  | some l => if l = a then showNat a else showNat a ++ '-' :: showNat l
  | none => showNat a
/-- The part `/step` of a printed expression (triggers/cron/expressions.py:55-58,132-140). -/
def stepText : Option Nat → Text
  | none => []
  | some n => if n = 0 then [] else '/' :: showNat n

/-- `__str__` of each class (expressions.py:55-58,138-147,187-190,230-233,282-283,295-296). -/
def Expr.text : Expr → Text
  | .all none => ['*']
  | .all (some n) => if n = 0 then ['*'] else '*' :: '/' :: showNat n
  | .range a b step => rangeText a b ++ stepText step
  | .monthRange a b => if b = a then months.getD (a - 1) []
    else months.getD (a - 1) [] ++ '-' :: months.getD (b - 1) []
  | .weekdayRange a b => if b = a then weekdays.getD a []
    else weekdays.getD a [] ++ '-' :: weekdays.getD b []
  | .weekdayPos o w => options.getD o [] ++ ' ' :: weekdays.getD w []
  | .lastDay => "last".toList

/-- `",".join(parts)`.  (triggers/cron/fields.py:90-92) -/
def joinComma : List Text → Text
  | [] => []
  | [p] => p
  | p :: ps => p ++ ',' :: joinComma ps

/-- `BaseField.__str__` (fields.py:92-94) -/
def fieldText (es : List Expr) : Text := joinComma (es.map Expr.text)

/-- `CronTrigger.field_names` (trigger.py:83-92) -/
def fieldNames : List FieldName := [.year, .month, .day, .week, .dayOfWeek, .hour, .minute, .second]

/-- `DEFAULT_VALUES` (constants.py:21-30), as text -/
def defaultText : FieldName → Text
  | .year => ['*'] | .month => ['1'] | .day => ['1'] | .week => ['*'] | .dayOfWeek => ['*']
  | .hour => ['0'] | .minute => ['0'] | .second => ['0']

/-- The text each field is built from in `CronTrigger.__init__` (trigger.py:119-142), given the arguments
that are not `None`: walks over the field names, `left` being the names still in `values`. -/
def chooseTexts (given : FieldName → Option Text) : List FieldName → List FieldName → Bool →
    List (FieldName × Text)
  | [], _, _ => []
  | f :: fs, left, assign =>
    match given f with
    | some t =>
      let left := left.filter (· != f)
      (f, t) :: chooseTexts given fs left left.isEmpty
    | none => (f, if assign then defaultText f else ['*']) :: chooseTexts given fs left assign

/-- The text of a field that was given, or `*` (triggers/cron/trigger.py:128-138). -/
def textOf (given : FieldName → Option Text) (f : FieldName) : Text :=
  ((chooseTexts given fieldNames (fieldNames.filter (fun f => (given f).isSome)) false).find?
    (fun p => p.1 == f)).elim ['*'] (·.2)

/-- The fields of `CronTrigger(**given)` (trigger.py:119-142), or `none` for `ValueError`. -/
def construct (given : FieldName → Option Text) : Option (FieldName → List Expr) :=
  if fieldNames.all (fun f => (compileField f (textOf given f)).isSome) then
    some (fun f => (compileField f (textOf given f)).getD [])
  else none

/-- `expression.split()`.  (triggers/cron/trigger.py:158) -/
def words (s : Text) : List Text :=
  match _h : s.dropWhile isBlank with
  | [] => []
  | c :: cs => (c :: cs).takeWhile (fun c => !isBlank c) :: words ((c :: cs).dropWhile (fun c => !isBlank c))
termination_by s.length
decreasing_by
  have h1 : (s.dropWhile isBlank).length ≤ s.length := by
    exact (List.dropWhile_sublist _).length_le
  have h2 : isBlank c = false := by
    have := List.head?_dropWhile_not isBlank s
    rw [_h] at this
    simpa using this
  rw [_h] at h1
  simp only [List.dropWhile_cons, h2]
  have h3 := (List.dropWhile_sublist (l := cs) (fun c => !isBlank c)).length_le
  simp only [List.length_cons] at h1
  simp
  omega

/-- `CronTrigger.from_crontab` (trigger.py:144-169) -/
def fromCrontab (s : Text) : Option (FieldName → List Expr) :=
  match words s with
  | [mi, h, d, mo, dow] => construct fun
    | .minute => some mi | .hour => some h | .day => some d | .month => some mo | .dayOfWeek => some dow
    | _ => none
  | _ => none

end Cron
end Asyncz
