import Verif.Ainur.Model
import Verif.Whole.SpecReal

/-!
# What src/Ainur/test.cpp should print
-/

namespace Verif.Whole.Fun

abbrev Text := List Char

/-- The file src/Ainur/prelude.ain. -/
def prelude : Text :=
  "integer TotalNumberOfSites;\n".toList ++
    "integer NumberOfTerms;\n".toList ++
    "integer DegreesOfFreedom;\n".toList ++
    "string GeometryKind;\n".toList ++
    "string GeometryOptions;\n".toList ++
    "vector dir0:Connectors;\n".toList ++
    "vector dir1:Connectors;\n".toList ++
    "integer LadderLeg;\n".toList ++
    "vector hubbardU;\n".toList ++
    "vector potentialV;\n".toList ++
    "string Model;\n".toList ++
    "string SolverOptions;\n".toList ++
    "string Version;\n".toList ++
    "integer InfiniteLoopKeptStates;\n".toList ++
    "string OutputFile;\n".toList ++
    "matrix.integer FiniteLoops ;\n".toList ++
    "integer RepeatFiniteLoopsFrom;\n".toList ++
    "integer RepeatFiniteLoopsTimes;\n".toList ++
    "integer TargetElectronsUp;\n".toList ++
    "integer TargetElectronsDown;\n".toList ++
    "real GsWeight;\n".toList ++
    "real TSPTau;\n".toList ++
    "integer TSPTimeSteps;\n".toList ++
    "integer TSPAdvanceEach;\n".toList ++
    "string TSPAlgorithm;\n".toList ++
    "vector.integer TSPSites;\n".toList ++
    "vector.integer TSPLoops;\n".toList ++
    "string TSPProductOrSum;\n".toList ++
    "string TSPOperator;\n".toList ++
    "string OperatorExpression;\n".toList ++
    "integer Threads = 1;\n".toList ++
    "\n".toList

/-- The file src/Ainur/input0.ain: `useit` is the function of the table in `function.txt` at `%t`, and `myvector` has two such entries. -/
def input0 : Text :=
  "##Ainur1.0\n".toList ++
    "TotalNumberOfSites=16;\n".toList ++
    "NumberOfTerms=1;\n".toList ++
    "DegreesOfFreedom=1;\n".toList ++
    "GeometryKind=chain;\n".toList ++
    "GeometryOptions=\"ConstantValues\";\n".toList ++
    "\n".toList ++
    "dir0:Connectors=[1.0];\n".toList ++
    "\n".toList ++
    "hubbardU=[1.0, ...];\n".toList ++
    "potentialV=[0.0, ...];\n".toList ++
    "\n".toList ++
    "Model=\"HubbardOneBand\";\n".toList ++
    "SolverOptions=\"none\";\n".toList ++
    "Version=\"53725d9b8f22615ccccc782082f4cd6f51a4e374\";\n".toList ++
    "OutputFile=\"data0.txt\";\n".toList ++
    "InfiniteLoopKeptStates=100;\n".toList ++
    "FiniteLoops=[\n".toList ++
    "\t[7, 100, 0],\n".toList ++
    "\t[-7, 100, 0],\n".toList ++
    "        [-7, 100, 0],\n".toList ++
    "\t[7, 100, 0]];\n".toList ++
    "TargetElectronsUp=8;\n".toList ++
    "TargetElectronsDown=8;\n".toList ++
    "\n".toList ++
    "#string AinurFromFile = blahblah;\n".toList ++
    "function myfunction = \\AinurFromFile(\"function.txt\");\n".toList ++
    "\n".toList ++
    "real useit = \\myfunction(%t);\n".toList ++
    "\n".toList ++
    "vector myvector = [\\useit, \\useit];\n".toList

/-- The value that a label has in the input, once the macros are expanded. -/
def Holds (s : Ainur.State) (k v : Text) : Prop := (s.vars.find? fun a => a.key = k).map (·.value) = some v

/-- The lines about the number and the texts. -/
def firstLines (n : Nat) (model useit : Text) : Text := Real.sitesLine n ++ model ++ ['\n'] ++ useit ++ ['\n']

/-- How many numbers there are and, if there are two, both. -/
def numberLines {Q : Type} (pr : Q → Text) : List Q → Text
  | [a, b] => "2\n".toList ++ pr a ++ [' '] ++ pr b ++ ['\n']
  | v => Nat.toDigits 10 v.length ++ ['\n']

end Verif.Whole.Fun
