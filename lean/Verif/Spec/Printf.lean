import Verif.Spec.Text

/-!
# `printf`

The part of `printf` that the code uses: `%d`, `%s`, `%e`, `%f` with a field width and a precision.  The messages are
specified by the format strings and arguments that stand in fbstab_algorithm-impl.h.
-/

namespace Fbstab.Printf

/-- A format string is a sequence of texts and conversions `%[width][.precision]letter`. -/
inductive Piece where
  | text (s : List Char)
  | conv (width : Nat) (precision : Option Nat) (letter : Char)
deriving DecidableEq

/-- Where the reader of a format string is: in a text, in the width, or in the precision. -/
inductive Reader where
  | text (s : List Char)
  | width (w : Nat)
  | precision (w p : Nat)

def digit (c : Char) : Nat := c.toNat - '0'.toNat

def read : Reader → List Char → List Piece
  | .text s, [] => [.text s]
  | _, [] => []
  | .text s, c :: cs => if c = '%' then .text s :: read (.width 0) cs else read (.text (s ++ [c])) cs
  | .width w, c :: cs =>
    if c.isDigit then read (.width (10 * w + digit c)) cs
    else if c = '.' then read (.precision w 0) cs
    else .conv w none c :: read (.text []) cs
  | .precision w p, c :: cs =>
    if c.isDigit then read (.precision w (10 * p + digit c)) cs
    else .conv w (some p) c :: read (.text []) cs

/-- The pieces of a format string. -/
def pieces (format : String) : List Piece := read (.text []) format.toList

/-- An argument; `written` is one whose text is given. -/
inductive Arg (K : Type) where
  | int (n : Int)
  | num (a : K)
  | str (s : String)
  | written (s : String)

/-- What a conversion makes of its argument.  `%e` means `%.6e`. -/
def Arg.text {K : Type} (F : NumText K) (precision : Option Nat) : Char → Arg K → String
  | 'd', .int n => toString n
  | 's', .str s => s
  | 'e', .num a => match precision with
    | none => F.sci6 a
    | some 4 => F.sci4 a
    | some _ => "?"
  | 'f', .written s => s
  | _, _ => "?"

/-- At least `n` characters, blanks in front. -/
def justify (n : Nat) (s : String) : String := String.ofList (List.replicate (n - s.length) ' ' ++ s.toList)

def write {K : Type} (F : NumText K) : List Piece → List (Arg K) → String
  | [], _ => ""
  | .text s :: ps, as => String.ofList s ++ write F ps as
  | .conv _ _ _ :: ps, [] => "?" ++ write F ps []
  | .conv w p c :: ps, a :: as => justify w (a.text F p c) ++ write F ps as

/-- The text that `printf(format, args...)` writes. -/
def printf {K : Type} (F : NumText K) (format : String) (args : List (Arg K)) : String := write F (pieces format) args

end Fbstab.Printf

namespace Fbstab

open Printf

/-- The text of each message: format string and arguments as in the source. -/
def Msg.formatted {K : Type} (F : NumText K) (time : String) : Msg K → String
  | .iterHeader => printf F "%12s  %12s  %12s  %12s  %12s  %12s  %12s\n"
      [.str "prox iter", .str "newton iters", .str "|rz|", .str "|rl|", .str "|rv|", .str "Inner res", .str "Inner tol"]
  | .iterLine p n rz rl rv ri itol => printf F "%12d  %12d  %12.4e  %12.4e  %12.4e  %12.4e  %12.4e\n"
      [.int p, .int n, .num rz, .num rl, .num rv, .num ri, .num itol]
  | .detailedHeader p n r => printf F "Begin Prox Iter: %d, Total Newton Iters: %d, Residual: %6.4e\n"
      [.int p, .int n, .num r]
  | .detailedColumns => printf F "%10s  %10s  %10s  %10s  %10s\n"
      [.str "Iter", .str "Step Size", .str "|rz|", .str "|rl|", .str "|rv|"]
  | .detailedLine i t rz rl rv => printf F "%10d  %10e  %10e  %10e  %10e\n"
      [.int i, .num t, .num rz, .num rl, .num rv]
  | .detailedFooter ri tol => printf F "Exiting inner loop. Inner residual: %6.4e, Inner tolerance: %6.4e\n"
      [.num ri, .num tol]
  | .finalBanner => "\nOptimization completed!  Exit code:"
  | .finalFlag e => e.words
  | .finalTime => printf F "Time elapsed: %f ms (-1.0 indicates timing disabled)\n" [.written time]
  | .finalProx p limit => printf F "Proximal iterations: %d out of %d\n" [.int p, .int limit]
  | .finalNewton n limit => printf F "Newton iterations: %d out of %d\n" [.int n, .int limit]
  | .finalColumns => printf F "%10s  %10s  %10s  %10s\n" [.str "|rz|", .str "|rl|", .str "|rv|", .str "Tolerance"]
  | .finalNorms rz rl rv tol => printf F "%10.4e  %10.4e  %10.4e  %10.4e\n" [.num rz, .num rl, .num rv, .num tol]
  | .finalBlank => "\n"

end Fbstab
