import Verif.Spec.Printf

/-!
# The model's texts are what `printf` writes
-/

set_option linter.unusedSimpArgs false

namespace Fbstab
open Printf

theorem justify_eq (n : Nat) (s : String) : justify n s = padLeft n s := by
  unfold justify padLeft
  rw [String.ofList_append, String.ofList_toList]

theorem padLeft_zero (s : String) : padLeft 0 s = s := by
  unfold padLeft
  simp

theorem toString_cast (n : Nat) : toString (n : Int) = toString n := rfl

theorem empty_append (s : String) : "" ++ s = s := String.empty_append

theorem ExitFlag.text_eq_words (e : ExitFlag) : e.text = e.words := by
  cases e <;> unfold ExitFlag.text ExitFlag.words <;> exact rfl

attribute [local irreducible] padLeft

theorem pieces_iterHeader : pieces "%12s  %12s  %12s  %12s  %12s  %12s  %12s\n" =
    [.text "".toList, .conv 12 none 's', .text "  ".toList, .conv 12 none 's', .text "  ".toList,
     .conv 12 none 's', .text "  ".toList, .conv 12 none 's', .text "  ".toList, .conv 12 none 's',
     .text "  ".toList, .conv 12 none 's', .text "  ".toList, .conv 12 none 's',
     .text "\n".toList] := by decide +kernel

theorem Msg.text_iterHeader {K : Type} (F : NumText K) (time : String) :
    Msg.text F time .iterHeader =
      padLeft 12 "prox iter" ++ "  " ++ padLeft 12 "newton iters" ++ "  " ++ padLeft 12 "|rz|" ++ "  " ++
      padLeft 12 "|rl|" ++ "  " ++ padLeft 12 "|rv|" ++ "  " ++ padLeft 12 "Inner res" ++ "  " ++
      padLeft 12 "Inner tol" ++ "\n" := by
  unfold Msg.text; exact rfl

theorem Msg.formatted_iterHeader {K : Type} (F : NumText K) (time : String) :
    Msg.formatted F time .iterHeader = Msg.text F time .iterHeader := by
  rw [Msg.text_iterHeader]
  unfold Msg.formatted printf
  dsimp only
  rw [pieces_iterHeader]
  simp only [write, Arg.text, justify_eq, padLeft_zero, String.ofList_toList, toString_cast, empty_append,
    String.append_assoc, String.append_empty]

theorem pieces_iterLine : pieces "%12d  %12d  %12.4e  %12.4e  %12.4e  %12.4e  %12.4e\n" =
    [.text "".toList, .conv 12 none 'd', .text "  ".toList, .conv 12 none 'd', .text "  ".toList,
     .conv 12 (some 4) 'e', .text "  ".toList, .conv 12 (some 4) 'e', .text "  ".toList, .conv 12 (some 4) 'e',
     .text "  ".toList, .conv 12 (some 4) 'e', .text "  ".toList, .conv 12 (some 4) 'e',
     .text "\n".toList] := by decide +kernel

theorem Msg.text_iterLine {K : Type} (F : NumText K) (time : String) (p n : Nat) (rz rl rv ri itol : K) :
    Msg.text F time (.iterLine p n rz rl rv ri itol) =
      padLeft 12 (toString p) ++ "  " ++ padLeft 12 (toString n) ++ "  " ++
      padLeft 12 (F.sci4 rz) ++ "  " ++ padLeft 12 (F.sci4 rl) ++ "  " ++ padLeft 12 (F.sci4 rv) ++ "  " ++
      padLeft 12 (F.sci4 ri) ++ "  " ++ padLeft 12 (F.sci4 itol) ++ "\n" := by
  unfold Msg.text; exact rfl

theorem Msg.formatted_iterLine {K : Type} (F : NumText K) (time : String) (p n : Nat) (rz rl rv ri itol : K) :
    Msg.formatted F time (.iterLine p n rz rl rv ri itol) = Msg.text F time (.iterLine p n rz rl rv ri itol) := by
  rw [Msg.text_iterLine]
  unfold Msg.formatted printf
  dsimp only
  rw [pieces_iterLine]
  simp only [write, Arg.text, justify_eq, padLeft_zero, String.ofList_toList, toString_cast, empty_append,
    String.append_assoc, String.append_empty]

theorem pieces_detailedHeader : pieces "Begin Prox Iter: %d, Total Newton Iters: %d, Residual: %6.4e\n" =
    [.text "Begin Prox Iter: ".toList, .conv 0 none 'd', .text ", Total Newton Iters: ".toList, .conv 0 none 'd',
     .text ", Residual: ".toList, .conv 6 (some 4) 'e', .text "\n".toList] := by decide +kernel

theorem Msg.text_detailedHeader {K : Type} (F : NumText K) (time : String) (p n : Nat) (r : K) :
    Msg.text F time (.detailedHeader p n r) =
      "Begin Prox Iter: " ++ toString p ++ ", Total Newton Iters: " ++ toString n ++
      ", Residual: " ++ padLeft 6 (F.sci4 r) ++ "\n" := by
  unfold Msg.text; exact rfl

theorem Msg.formatted_detailedHeader {K : Type} (F : NumText K) (time : String) (p n : Nat) (r : K) :
    Msg.formatted F time (.detailedHeader p n r) = Msg.text F time (.detailedHeader p n r) := by
  rw [Msg.text_detailedHeader]
  unfold Msg.formatted printf
  dsimp only
  rw [pieces_detailedHeader]
  simp only [write, Arg.text, justify_eq, padLeft_zero, String.ofList_toList, toString_cast, empty_append,
    String.append_assoc, String.append_empty]

theorem pieces_detailedColumns : pieces "%10s  %10s  %10s  %10s  %10s\n" =
    [.text "".toList, .conv 10 none 's', .text "  ".toList, .conv 10 none 's', .text "  ".toList,
     .conv 10 none 's', .text "  ".toList, .conv 10 none 's', .text "  ".toList, .conv 10 none 's',
     .text "\n".toList] := by decide +kernel

theorem Msg.text_detailedColumns {K : Type} (F : NumText K) (time : String) :
    Msg.text F time .detailedColumns =
      padLeft 10 "Iter" ++ "  " ++ padLeft 10 "Step Size" ++ "  " ++ padLeft 10 "|rz|" ++ "  " ++
      padLeft 10 "|rl|" ++ "  " ++ padLeft 10 "|rv|" ++ "\n" := by
  unfold Msg.text; exact rfl

theorem Msg.formatted_detailedColumns {K : Type} (F : NumText K) (time : String) :
    Msg.formatted F time .detailedColumns = Msg.text F time .detailedColumns := by
  rw [Msg.text_detailedColumns]
  unfold Msg.formatted printf
  dsimp only
  rw [pieces_detailedColumns]
  simp only [write, Arg.text, justify_eq, padLeft_zero, String.ofList_toList, toString_cast, empty_append,
    String.append_assoc, String.append_empty]

theorem pieces_detailedLine : pieces "%10d  %10e  %10e  %10e  %10e\n" =
    [.text "".toList, .conv 10 none 'd', .text "  ".toList, .conv 10 none 'e', .text "  ".toList,
     .conv 10 none 'e', .text "  ".toList, .conv 10 none 'e', .text "  ".toList, .conv 10 none 'e',
     .text "\n".toList] := by decide +kernel

theorem Msg.text_detailedLine {K : Type} (F : NumText K) (time : String) (i : Nat) (t rz rl rv : K) :
    Msg.text F time (.detailedLine i t rz rl rv) = padLeft 10 (toString i) ++ "  " ++ padLeft 10 (F.sci6 t) ++ "  " ++
      padLeft 10 (F.sci6 rz) ++ "  " ++ padLeft 10 (F.sci6 rl) ++ "  " ++ padLeft 10 (F.sci6 rv) ++ "\n" := by
  unfold Msg.text; exact rfl

theorem Msg.formatted_detailedLine {K : Type} (F : NumText K) (time : String) (i : Nat) (t rz rl rv : K) :
    Msg.formatted F time (.detailedLine i t rz rl rv) = Msg.text F time (.detailedLine i t rz rl rv) := by
  rw [Msg.text_detailedLine]
  unfold Msg.formatted printf
  dsimp only
  rw [pieces_detailedLine]
  simp only [write, Arg.text, justify_eq, padLeft_zero, String.ofList_toList, toString_cast, empty_append,
    String.append_assoc, String.append_empty]

theorem pieces_detailedFooter : pieces "Exiting inner loop. Inner residual: %6.4e, Inner tolerance: %6.4e\n" =
    [.text "Exiting inner loop. Inner residual: ".toList, .conv 6 (some 4) 'e', .text ", Inner tolerance: ".toList, .conv 6 (some 4) 'e', .text "\n".toList] := by decide +kernel

theorem Msg.text_detailedFooter {K : Type} (F : NumText K) (time : String) (ri tol : K) :
    Msg.text F time (.detailedFooter ri tol) = "Exiting inner loop. Inner residual: " ++ padLeft 6 (F.sci4 ri) ++
      ", Inner tolerance: " ++ padLeft 6 (F.sci4 tol) ++ "\n" := by
  unfold Msg.text; exact rfl

theorem Msg.formatted_detailedFooter {K : Type} (F : NumText K) (time : String) (ri tol : K) :
    Msg.formatted F time (.detailedFooter ri tol) = Msg.text F time (.detailedFooter ri tol) := by
  rw [Msg.text_detailedFooter]
  unfold Msg.formatted printf
  dsimp only
  rw [pieces_detailedFooter]
  simp only [write, Arg.text, justify_eq, padLeft_zero, String.ofList_toList, toString_cast, empty_append,
    String.append_assoc, String.append_empty]

theorem pieces_finalTime : pieces "Time elapsed: %f ms (-1.0 indicates timing disabled)\n" =
    [.text "Time elapsed: ".toList, .conv 0 none 'f',
     .text " ms (-1.0 indicates timing disabled)\n".toList] := by decide +kernel

theorem Msg.text_finalTime {K : Type} (F : NumText K) (time : String) :
    Msg.text F time .finalTime = "Time elapsed: " ++ time ++ " ms (-1.0 indicates timing disabled)\n" := by
  unfold Msg.text; exact rfl

theorem Msg.formatted_finalTime {K : Type} (F : NumText K) (time : String) :
    Msg.formatted F time .finalTime = Msg.text F time .finalTime := by
  rw [Msg.text_finalTime]
  unfold Msg.formatted printf
  dsimp only
  rw [pieces_finalTime]
  simp only [write, Arg.text, justify_eq, padLeft_zero, String.ofList_toList, toString_cast, empty_append,
    String.append_assoc, String.append_empty]

theorem pieces_finalProx : pieces "Proximal iterations: %d out of %d\n" =
    [.text "Proximal iterations: ".toList, .conv 0 none 'd', .text " out of ".toList, .conv 0 none 'd',
     .text "\n".toList] := by decide +kernel

theorem Msg.text_finalProx {K : Type} (F : NumText K) (time : String) (p : Nat) (limit : Int) :
    Msg.text F time (.finalProx p limit) =
      "Proximal iterations: " ++ toString p ++ " out of " ++ toString limit ++ "\n" := by
  unfold Msg.text; exact rfl

theorem Msg.formatted_finalProx {K : Type} (F : NumText K) (time : String) (p : Nat) (limit : Int) :
    Msg.formatted F time (.finalProx p limit) = Msg.text F time (.finalProx p limit) := by
  rw [Msg.text_finalProx]
  unfold Msg.formatted printf
  dsimp only
  rw [pieces_finalProx]
  simp only [write, Arg.text, justify_eq, padLeft_zero, String.ofList_toList, toString_cast, empty_append,
    String.append_assoc, String.append_empty]

theorem pieces_finalNewton : pieces "Newton iterations: %d out of %d\n" =
    [.text "Newton iterations: ".toList, .conv 0 none 'd', .text " out of ".toList, .conv 0 none 'd',
     .text "\n".toList] := by decide +kernel

theorem Msg.text_finalNewton {K : Type} (F : NumText K) (time : String) (n : Nat) (limit : Int) :
    Msg.text F time (.finalNewton n limit) =
      "Newton iterations: " ++ toString n ++ " out of " ++ toString limit ++ "\n" := by
  unfold Msg.text; exact rfl

theorem Msg.formatted_finalNewton {K : Type} (F : NumText K) (time : String) (n : Nat) (limit : Int) :
    Msg.formatted F time (.finalNewton n limit) = Msg.text F time (.finalNewton n limit) := by
  rw [Msg.text_finalNewton]
  unfold Msg.formatted printf
  dsimp only
  rw [pieces_finalNewton]
  simp only [write, Arg.text, justify_eq, padLeft_zero, String.ofList_toList, toString_cast, empty_append,
    String.append_assoc, String.append_empty]

theorem pieces_finalColumns : pieces "%10s  %10s  %10s  %10s\n" =
    [.text "".toList, .conv 10 none 's', .text "  ".toList, .conv 10 none 's', .text "  ".toList,
     .conv 10 none 's', .text "  ".toList, .conv 10 none 's', .text "\n".toList] := by decide +kernel

theorem Msg.text_finalColumns {K : Type} (F : NumText K) (time : String) :
    Msg.text F time .finalColumns =
      padLeft 10 "|rz|" ++ "  " ++ padLeft 10 "|rl|" ++ "  " ++ padLeft 10 "|rv|" ++ "  " ++
      padLeft 10 "Tolerance" ++ "\n" := by
  unfold Msg.text; exact rfl

theorem Msg.formatted_finalColumns {K : Type} (F : NumText K) (time : String) :
    Msg.formatted F time .finalColumns = Msg.text F time .finalColumns := by
  rw [Msg.text_finalColumns]
  unfold Msg.formatted printf
  dsimp only
  rw [pieces_finalColumns]
  simp only [write, Arg.text, justify_eq, padLeft_zero, String.ofList_toList, toString_cast, empty_append,
    String.append_assoc, String.append_empty]

theorem pieces_finalNorms : pieces "%10.4e  %10.4e  %10.4e  %10.4e\n" =
    [.text "".toList, .conv 10 (some 4) 'e', .text "  ".toList, .conv 10 (some 4) 'e', .text "  ".toList,
     .conv 10 (some 4) 'e', .text "  ".toList, .conv 10 (some 4) 'e', .text "\n".toList] := by decide +kernel

theorem Msg.text_finalNorms {K : Type} (F : NumText K) (time : String) (rz rl rv tol : K) :
    Msg.text F time (.finalNorms rz rl rv tol) = padLeft 10 (F.sci4 rz) ++ "  " ++ padLeft 10 (F.sci4 rl) ++ "  " ++
      padLeft 10 (F.sci4 rv) ++ "  " ++ padLeft 10 (F.sci4 tol) ++ "\n" := by
  unfold Msg.text; exact rfl

theorem Msg.formatted_finalNorms {K : Type} (F : NumText K) (time : String) (rz rl rv tol : K) :
    Msg.formatted F time (.finalNorms rz rl rv tol) = Msg.text F time (.finalNorms rz rl rv tol) := by
  rw [Msg.text_finalNorms]
  unfold Msg.formatted printf
  dsimp only
  rw [pieces_finalNorms]
  simp only [write, Arg.text, justify_eq, padLeft_zero, String.ofList_toList, toString_cast, empty_append,
    String.append_assoc, String.append_empty]

/-- Every message the model writes is what `printf` makes of the source's format string and arguments. -/
theorem Msg.formatted_eq {K : Type} (F : NumText K) (time : String) (m : Msg K) : m.formatted F time = m.text F time := by
  cases m with
  | iterHeader => exact Msg.formatted_iterHeader F time
  | iterLine p n rz rl rv ri itol => exact Msg.formatted_iterLine F time p n rz rl rv ri itol
  | detailedHeader p n r => exact Msg.formatted_detailedHeader F time p n r
  | detailedColumns => exact Msg.formatted_detailedColumns F time
  | detailedLine i t rz rl rv => exact Msg.formatted_detailedLine F time i t rz rl rv
  | detailedFooter ri tol => exact Msg.formatted_detailedFooter F time ri tol
  | finalBanner => unfold Msg.formatted Msg.text; exact rfl
  | finalFlag e =>
    have h : Msg.formatted F time (.finalFlag e) = e.words := by unfold Msg.formatted; exact rfl
    have h' : Msg.text F time (.finalFlag e) = e.text := by unfold Msg.text; exact rfl
    rw [h, h']
    exact (ExitFlag.text_eq_words e).symm
  | finalTime => exact Msg.formatted_finalTime F time
  | finalProx p limit => exact Msg.formatted_finalProx F time p limit
  | finalNewton n limit => exact Msg.formatted_finalNewton F time n limit
  | finalColumns => exact Msg.formatted_finalColumns F time
  | finalNorms rz rl rv tol => exact Msg.formatted_finalNorms F time rz rl rv tol
  | finalBlank => unfold Msg.formatted Msg.text; exact rfl

end Fbstab
