import Verif.Formula.CellProps
/-
C82: the result stored with a formula whose outermost operation is a function has the kind that function yields, or is an error value.

The results are placeholders (formula_expr.cpp 617-816); a program that reads the file without calculating shows them.
-/
namespace Xls.Formula
open Xls.Num Xls.Unit Xls.Biff

/-! ### Specification: the kinds of results of the functions of a worksheet, with their numbers in a file -/

/-- Functions that yield TRUE or FALSE. -/
def yieldLogical : List (String × Nat) :=
  [("ISNA", 2), ("ISERROR", 3), ("TRUE", 34), ("FALSE", 35), ("AND", 36), ("OR", 37), ("NOT", 38), ("ISREF", 105), ("EXACT", 117),
   ("ISERR", 126), ("ISTEXT", 127), ("ISNUMBER", 128), ("ISBLANK", 129), ("ISNONTEXT", 190), ("ISLOGICAL", 198), ("ISTHAIDIGIT", 375),
   ("ISEVEN", 420), ("ISODD", 421)]

/-- Functions that yield a text. -/
def yieldText : List (String × Nat) :=
  [("DOLLAR", 13), ("FIXED", 14), ("REPT", 30), ("MID", 31), ("TEXT", 48), ("CHAR", 111), ("LOWER", 112), ("UPPER", 113), ("PROPER", 114),
   ("LEFT", 115), ("RIGHT", 116), ("TRIM", 118), ("REPLACE", 119), ("SUBSTITUTE", 120), ("T", 130), ("CLEAN", 162), ("USDOLLAR", 204),
   ("REPLACEB", 207), ("LEFTB", 208), ("RIGHTB", 209), ("MIDB", 210), ("ASC", 214), ("DBCS", 215), ("ADDRESS", 219), ("CONCATENATE", 336),
   ("DATESTRING", 352), ("NUMBERSTRING", 353), ("ROMAN", 354), ("PHONETIC", 360), ("BAHTTEXT", 368), ("THAIDAYOFWEEK", 369),
   ("THAIDIGIT", 370), ("THAIMONTHOFYEAR", 371), ("THAINUMSOUND", 372), ("THAINUMSTRING", 373), ("HEX2BIN", 384), ("HEX2OCT", 386),
   ("DEC2BIN", 387), ("DEC2HEX", 388), ("DEC2OCT", 389), ("OCT2BIN", 390), ("OCT2HEX", 391), ("BIN2OCT", 394), ("BIN2HEX", 395),
   ("IMSUB", 396), ("IMDIV", 397), ("IMPOWER", 398), ("IMSQRT", 400), ("IMLN", 401), ("IMLOG2", 402), ("IMLOG10", 403), ("IMSIN", 404),
   ("IMCOS", 405), ("IMEXP", 406), ("IMCONJUGATE", 408), ("COMPLEX", 411), ("IMSUM", 412), ("IMPRODUCT", 413)]

/-- Functions that yield a number. -/
def yieldNumber : List (String × Nat) :=
  [("COUNT", 0), ("SUM", 4), ("AVERAGE", 5), ("MIN", 6), ("MAX", 7), ("ROW", 8), ("COLUMN", 9), ("NPV", 11), ("STDEV", 12), ("SIN", 15),
   ("COS", 16), ("TAN", 17), ("ATAN", 18), ("PI", 19), ("SQRT", 20), ("EXP", 21), ("LN", 22), ("LOG10", 23), ("ABS", 24), ("INT", 25),
   ("SIGN", 26), ("ROUND", 27), ("LEN", 32), ("VALUE", 33), ("MOD", 39), ("DCOUNT", 40), ("DSUM", 41), ("DAVERAGE", 42), ("DMIN", 43),
   ("DMAX", 44), ("DSTDEV", 45), ("VAR", 46), ("DVAR", 47), ("LINEST", 49), ("TREND", 50), ("LOGEST", 51), ("GROWTH", 52), ("PV", 56),
   ("FV", 57), ("NPER", 58), ("PMT", 59), ("RATE", 60), ("MIRR", 61), ("IRR", 62), ("RAND", 63), ("MATCH", 64), ("DATE", 65), ("TIME", 66),
   ("DAY", 67), ("MONTH", 68), ("YEAR", 69), ("WEEKDAY", 70), ("HOUR", 71), ("MINUTE", 72), ("SECOND", 73), ("NOW", 74), ("AREAS", 75),
   ("ROWS", 76), ("COLUMNS", 77), ("SEARCH", 82), ("TYPE", 86), ("ATAN2", 97), ("ASIN", 98), ("ACOS", 99), ("LOG", 109), ("CODE", 121),
   ("FIND", 124), ("N", 131), ("DATEVALUE", 140), ("TIMEVALUE", 141), ("SLN", 142), ("SYD", 143), ("DDB", 144), ("MDETERM", 163),
   ("MINVERSE", 164), ("MMULT", 165), ("IPMT", 167), ("PPMT", 168), ("COUNTA", 169), ("PRODUCT", 183), ("FACT", 184), ("DPRODUCT", 189),
   ("STDEVP", 193), ("VARP", 194), ("DSTDEVP", 195), ("DVARP", 196), ("TRUNC", 197), ("DCOUNTA", 199), ("FINDB", 205), ("SEARCHB", 206),
   ("LENB", 211), ("ROUNDUP", 212), ("ROUNDDOWN", 213), ("RANK", 216), ("DAYS360", 220), ("TODAY", 221), ("VDB", 222), ("MEDIAN", 227),
   ("SUMPRODUCT", 228), ("SINH", 229), ("COSH", 230), ("TANH", 231), ("ASINH", 232), ("ACOSH", 233), ("ATANH", 234), ("DB", 247),
   ("FREQUENCY", 252), ("ERROR.TYPE", 261), ("AVEDEV", 269), ("BETADIST", 270), ("GAMMALN", 271), ("BETAINV", 272), ("BINOMDIST", 273),
   ("CHIDIST", 274), ("CHIINV", 275), ("COMBIN", 276), ("CONFIDENCE", 277), ("CRITBINOM", 278), ("EVEN", 279), ("EXPONDIST", 280),
   ("FDIST", 281), ("FINV", 282), ("FISHER", 283), ("FISHERINV", 284), ("FLOOR", 285), ("GAMMADIST", 286), ("GAMMAINV", 287),
   ("CEILING", 288), ("HYPGEOMDIST", 289), ("LOGNORMDIST", 290), ("LOGINV", 291), ("NEGBINOMDIST", 292), ("NORMDIST", 293),
   ("NORMSDIST", 294), ("NORMINV", 295), ("NORMSINV", 296), ("STANDARDIZE", 297), ("ODD", 298), ("PERMUT", 299), ("POISSON", 300),
   ("TDIST", 301), ("WEIBULL", 302), ("SUMXMY2", 303), ("SUMX2MY2", 304), ("SUMX2PY2", 305), ("CHITEST", 306), ("CORREL", 307),
   ("COVAR", 308), ("FORECAST", 309), ("FTEST", 310), ("INTERCEPT", 311), ("PEARSON", 312), ("RSQ", 313), ("STEYX", 314), ("SLOPE", 315),
   ("TTEST", 316), ("PROB", 317), ("DEVSQ", 318), ("GEOMEAN", 319), ("HARMEAN", 320), ("SUMSQ", 321), ("KURT", 322), ("SKEW", 323),
   ("ZTEST", 324), ("LARGE", 325), ("SMALL", 326), ("QUARTILE", 327), ("PERCENTILE", 328), ("PERCENTRANK", 329), ("MODE", 330),
   ("TRIMMEAN", 331), ("TINV", 332), ("POWER", 337), ("RADIANS", 342), ("DEGREES", 343), ("SUBTOTAL", 344), ("SUMIF", 345),
   ("COUNTIF", 346), ("COUNTBLANK", 347), ("ISPMT", 350), ("DATEDIF", 351), ("GETPIVOTDATA", 358), ("AVERAGEA", 361), ("MAXA", 362),
   ("MINA", 363), ("STDEVPA", 364), ("VARPA", 365), ("STDEVA", 366), ("VARA", 367), ("THAISTRINGLENGTH", 374), ("ROUNDBAHTDOWN", 376),
   ("ROUNDBAHTUP", 377), ("THAIYEAR", 378), ("HEX2DEC", 385), ("OCT2DEC", 392), ("BIN2DEC", 393), ("IMABS", 399), ("IMARGUMENT", 407),
   ("IMAGINARY", 409), ("IMREAL", 410), ("SERIESSUM", 414), ("FACTDOUBLE", 415), ("SQRTPI", 416), ("QUOTIENT", 417), ("DELTA", 418),
   ("GESTEP", 419), ("MROUND", 422), ("ERF", 423), ("ERFC", 424), ("BESSELJ", 425), ("BESSELK", 426), ("BESSELY", 427), ("BESSELI", 428),
   ("XIRR", 429), ("XNPV", 430), ("PRICEMAT", 431), ("YIELDMAT", 432), ("INTRATE", 433), ("RECEIVED", 434), ("DISC", 435),
   ("PRICEDISC", 436), ("YIELDDISC", 437), ("TBILLEQ", 438), ("TBILLPRICE", 439), ("TBILLYIELD", 440), ("PRICE", 441), ("YIELD", 442),
   ("DOLLARDE", 443), ("DOLLARFR", 444), ("NOMINAL", 445), ("EFFECT", 446), ("CUMPRINC", 447), ("CUMIPMT", 448), ("EDATE", 449),
   ("EOMONTH", 450), ("YEARFRAC", 451), ("COUPDAYBS", 452), ("COUPDAYS", 453), ("COUPDAYSNC", 454), ("COUPNCD", 455), ("COUPNUM", 456),
   ("COUPPCD", 457), ("DURATION", 458), ("MDURATION", 459), ("ODDLPRICE", 460), ("ODDLYIELD", 461), ("ODDFPRICE", 462), ("ODDFYIELD", 463),
   ("RANDBETWEEN", 464), ("WEEKNUM", 465), ("AMORDEGRC", 466), ("AMORLINC", 467), ("CONVERT", 468), ("ACCRINT", 469), ("ACCRINTM", 470),
   ("WORKDAY", 471), ("NETWORKDAYS", 472), ("GCD", 473), ("MULTINOMIAL", 474), ("LCM", 475), ("FVSCHEDULE", 476), ("CUBESETCOUNT", 479),
   ("COUNTIFS", 481), ("SUMIFS", 482), ("AVERAGEIF", 483), ("AVERAGEIFS", 484)]

/-- The kinds of a stored result. -/
def Cached.isLogical : Cached → Bool
  | .bool _ => true
  | _ => false

def Cached.isNumber : Cached → Bool
  | .num _ => true
  | _ => false

/-- A stored result `c` is no lie about function `code`: an error value, or of its kind. -/
def Fair (code : Nat) (c : Cached) : Prop :=
  (∃ e, c = .err e) ∨
    ((code ∈ yieldLogical.map Prod.snd → c.isLogical) ∧ (code ∈ yieldText.map Prod.snd → c = .str) ∧
      (code ∈ yieldNumber.map Prod.snd → c.isNumber))

/-- The functions for which the library errs: T, N, ISPMT, HEX2DEC, OCT2DEC, BIN2DEC. -/
def wrongKinds : List Nat := [130, 131, 350, 385, 392, 393]

/-! ### Proof -/

/-- `Fair` for the value before it is encoded. -/
def fairEst (code : Nat) (v : Est) : Bool :=
  match v with
  | .err _ => true
  | .bool _ => !(yieldText.map Prod.snd).contains code && !(yieldNumber.map Prod.snd).contains code
  | .str _ => !(yieldLogical.map Prod.snd).contains code && !(yieldNumber.map Prod.snd).contains code
  | .int _ | .dbl _ => !(yieldLogical.map Prod.snd).contains code && !(yieldText.map Prod.snd).contains code
  | .unknown => false

theorem fair_table : ∀ code ∈ (yieldLogical ++ yieldText ++ yieldNumber).map Prod.snd, code ∉ wrongKinds → fairEst code (funcEstimate code).val = true := by
  decide +kernel

theorem funcEstimate_inRange (code : Nat) : (funcEstimate code).val.InRange := by
  unfold funcEstimate
  repeat' split
  all_goals simp [Est.InRange]

theorem fair_of_est {code : Nat} {v : Est} {c : Cached} (h : fairEst code v = true) (hc : CachedIs v c) : Fair code c := by
  cases v <;> cases c <;> simp only [CachedIs] at hc <;> simp [fairEst] at h <;> simp [Fair, Cached.isLogical, Cached.isNumber] <;> grind

/-- C82: a formula made by a function stores, whatever its arguments, an error value or a result of the kind the function yields, and is marked for
    calculation when the file is opened.  A text follows exactly when the result is a text.  Missing: the six functions of `c82_wrong`. -/
theorem c82_kind_partial {code : Nat} (hw : code ∉ wrongKinds) (cls : Nat) (args : List Expr) {row col xf : Nat} (hr : row < 65536) (hc : col < 65536)
    (hx : xf < 65536) {tok : Bytes} (ht : tok.length < 65536) :
    ∃ p rest v fl c, formulaRecords row col xf false (estimate (.func code cls args)) tok = (0x06, p) :: rest ∧
      readFormula p = some ⟨row, col, xf, v, fl, tok, []⟩ ∧ readCached v = some c ∧ Fair code c ∧ fl / 2 % 2 = 1 ∧
      (c = .str → ∃ q s, rest = [(0x207, q)] ∧ Spec.readStr2 q = some (s, [])) ∧ (c ≠ .str → rest = []) := by
  have hf : (estimate (.func code cls args)).flags % 65536 / 2 % 2 = 1 := by
    have := c27_recalculated (e := .func code cls args) (fun h => h)
    omega
  have hi : (estimate (.func code cls args)).val.InRange := funcEstimate_inRange code
  obtain ⟨c, hd, hi'⟩ := c27_decodes hi
  refine ⟨_, _, _, _, c, by unfold formulaRecords; rfl, readFormula_head hr hc hx _ _ ht, hd, ?_, hf, ?_, ?_⟩
  · by_cases hm : code ∈ (yieldLogical ++ yieldText ++ yieldNumber).map Prod.snd
    · exact fair_of_est (fair_table code hm hw) hi'
    · rw [List.map_append, List.map_append, List.mem_append, List.mem_append] at hm
      exact .inr ⟨fun h => absurd (.inl (.inl h)) hm, fun h => absurd (.inl (.inr h)) hm, fun h => absurd (.inr h) hm⟩
  · rintro rfl
    have ht : ∀ v, (estimate (.func code cls args)).val = v → CachedIs v .str → ∃ s, v = .str s ∧ s.length < 65536 := by
      intro v hv hs
      cases v <;> simp only [CachedIs] at hs
      refine ⟨_, rfl, ?_⟩
      have : (funcEstimate code).val = .str _ := hv
      unfold funcEstimate at this
      repeat' split at this
      all_goals (cases this; try decide)
    obtain ⟨s, hs, hl⟩ := ht _ rfl hi'
    refine ⟨_, s, by rw [hs]; rfl, ?_⟩
    have := c04_len2_roundtrip s [] hl
    rwa [List.append_nil] at this
  · intro hne
    cases hv : (estimate (.func code cls args)).val <;> try rfl
    rw [hv] at hi'
    cases c <;> simp only [CachedIs] at hi'
    exact absurd rfl hne

/-- C82 fails for T, N, ISPMT, HEX2DEC, OCT2DEC and BIN2DEC: whatever the arguments, the stored result is of a kind the function never yields. -/
theorem c82_wrong {code : Nat} (hw : code ∈ wrongKinds) (cls : Nat) (args : List Expr) {row col xf : Nat} (hr : row < 65536) (hc : col < 65536)
    (hx : xf < 65536) {tok : Bytes} (ht : tok.length < 65536) :
    ∃ p rest v fl c, formulaRecords row col xf false (estimate (.func code cls args)) tok = (0x06, p) :: rest ∧
      readFormula p = some ⟨row, col, xf, v, fl, tok, []⟩ ∧ readCached v = some c ∧ ¬ Fair code c := by
  obtain ⟨c, hd, hi'⟩ := c27_decodes (e := (estimate (.func code cls args)).val) (funcEstimate_inRange code)
  refine ⟨_, _, _, _, c, by unfold formulaRecords; rfl, readFormula_head hr hc hx _ _ ht, hd, ?_⟩
  have key : ∀ code ∈ wrongKinds, ∀ c ∈ [Cached.bool false, Cached.str], CachedIs (funcEstimate code).val c → ¬ Fair code c := by
    intro code h c hc hi
    simp only [wrongKinds, List.mem_cons, List.not_mem_nil, or_false] at h hc
    rintro (⟨e, rfl⟩ | ⟨-, h2, h3⟩)
    · rcases hc with h | h <;> cases h
    · rcases h with rfl | rfl | rfl | rfl | rfl | rfl
      · rcases hc with rfl | rfl
        · cases h2 (by decide +kernel)
        · exact hi
      all_goals
        rcases hc with rfl | rfl <;> exact absurd (h3 (by decide +kernel)) (by decide)
  have val : ∀ code ∈ wrongKinds, (funcEstimate code).val = .bool false ∨ (funcEstimate code).val = .str [63, 63, 63] := by decide +kernel
  refine key code hw c ?_ hi'
  have hi : CachedIs (funcEstimate code).val c := hi'
  rcases val code hw with h | h <;> rw [h] at hi <;> cases c <;> simp only [CachedIs] at hi
  · subst hi; simp
  · simp

/-- Functions in daily use. -/
def everyday : List (String × Nat) :=
  [("COUNT", 0), ("COUNTA", 169), ("COUNTIF", 346), ("COUNTBLANK", 347), ("SUM", 4), ("SUMIF", 345), ("SUMPRODUCT", 228), ("AVERAGE", 5), ("MIN", 6), ("MAX", 7),
   ("MEDIAN", 227), ("STDEV", 12), ("VAR", 46), ("ABS", 24), ("MOD", 39), ("ROUND", 27), ("ROUNDUP", 212), ("ROUNDDOWN", 213), ("SQRT", 20), ("POWER", 337),
   ("EXP", 21), ("LN", 22), ("LOG", 109), ("LOG10", 23), ("PI", 19), ("SIN", 15), ("COS", 16), ("TAN", 17), ("RAND", 63), ("NOW", 74), ("TODAY", 221),
   ("DATE", 65), ("TIME", 66), ("DAY", 67), ("MONTH", 68), ("YEAR", 69), ("WEEKDAY", 70), ("HOUR", 71), ("MINUTE", 72), ("SECOND", 73), ("ROW", 8),
   ("COLUMN", 9), ("AND", 36), ("OR", 37), ("NOT", 38), ("TRUE", 34), ("FALSE", 35), ("ISNA", 2), ("ISERROR", 3), ("ISERR", 126), ("ISTEXT", 127),
   ("ISNUMBER", 128), ("ISBLANK", 129), ("LOWER", 112), ("UPPER", 113), ("LEFT", 115), ("RIGHT", 116), ("TRIM", 118), ("REPLACE", 119),
   ("CONCATENATE", 336)]

/-- C82: for functions in daily use the stored result is of the right kind, and no error value. -/
theorem c82_everyday {f : String × Nat} (h : f ∈ everyday) (cls : Nat) (args : List Expr) {row col xf : Nat} (hr : row < 65536) (hc : col < 65536)
    (hx : xf < 65536) {tok : Bytes} (ht : tok.length < 65536) :
    ∃ p rest v fl c, formulaRecords row col xf false (estimate (.func f.2 cls args)) tok = (0x06, p) :: rest ∧
      readFormula p = some ⟨row, col, xf, v, fl, tok, []⟩ ∧ readCached v = some c ∧ Fair f.2 c ∧ ∀ e, c ≠ .err e := by
  have t1 : ∀ f ∈ everyday, f.2 ∉ wrongKinds := by decide +kernel
  have t2 : ∀ f ∈ everyday, (match (funcEstimate f.2).val with | .err _ => true | _ => false) = false := by decide +kernel
  obtain ⟨c, hd, hi'⟩ := c27_decodes (e := (estimate (.func f.2 cls args)).val) (funcEstimate_inRange f.2)
  obtain ⟨p, rest, v, fl, c', h1, h2, h3, h4, -⟩ := c82_kind_partial (t1 f h) cls args hr hc hx ht
  refine ⟨p, rest, v, fl, c', h1, h2, h3, h4, ?_⟩
  have hv : readFormula p = some ⟨row, col, xf, (estimate (.func f.2 cls args)).val.encode % 2 ^ 64, (estimate (.func f.2 cls args)).flags % 65536, tok, []⟩ := by
    have : p = formulaHead row col xf (estimate (.func f.2 cls args)) ++ rgce tok := by
      unfold formulaRecords at h1
      simp only [Bool.false_eq_true, if_false, List.cons_append, List.nil_append, List.cons.injEq, Prod.mk.injEq, true_and] at h1
      exact h1.1.symm
    rw [this]
    exact readFormula_head hr hc hx _ _ ht
  rw [h2] at hv
  have hv : v = (estimate (.func f.2 cls args)).val.encode % 2 ^ 64 := congrArg FormulaRec.value (Option.some.inj hv)
  rw [hv, hd] at h3
  cases h3
  intro e he
  subst he
  have hi : CachedIs (funcEstimate f.2).val (.err e) := hi'
  have h0 := t2 f h
  revert hi h0
  cases (funcEstimate f.2).val <;> intro hi h0 <;> first | exact hi | cases h0

/-- LEN(TRUE) is an error value for now; UPPER has a text, SUM a number and ISNA a truth value. -/
example : [32, 113, 4, 2].map (fun code => (readCached ((funcEstimate code).val.encode % 2 ^ 64))) =
    [some (.err 0x0F), some .str, some (.num 0x4045000000000000), some (.bool false)] ∧ (∀ code ∈ [32, 113, 4, 2], code ∉ wrongKinds) := by decide +kernel

end Xls.Formula
