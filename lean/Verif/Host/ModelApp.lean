import Verif.Host.ModelMemory
import Verif.Base64.Model
import Verif.StrUtil.Model
import Verif.Util.Out

/-!
# Model of `PsiApp` (src/PsimagLite.h), `typeToString` (src/TypeToString.h) and `printMap` (src/Map.h)
-/

namespace Verif.Host

open Verif.Str

/-- What `PsiApp` keeps, src/PsimagLite.h:139-142 (without the object for threads and processes). -/
structure App where
  appName : Str
  cmdLine : Str
  microArch : Str
  deriving DecidableEq

/-- The loop over the arguments, src/PsimagLite.h:79-82. -/
def cmdLoop : List Str → Str → Str
  | [], s => s
  | a :: rest, s => cmdLoop rest (s ++ (a ++ [' ']))

/-- The constructor, src/PsimagLite.h:71-82 and 134-141; `cpuinfo` are the lines of the file that tells the processor, and `appSize`
and `libSize` the sizes of `SizeType` in the application and in the library. -/
def App.make (appSize libSize : Nat) (cpuinfo : Option (List Str)) (appName : Str) (argv : List Str) : Out App :=
  match vendorId cpuinfo with
  | none => throwOut
  | some v => if appSize = libSize then .ok ⟨StrUtil.basename appName, cmdLoop argv [], v⟩ else throwOut

/-- `checkMicroArch`, src/PsimagLite.h:84-93: the text it prints. -/
def App.checkMicroArch (a : App) (compiled : Str) : Str :=
  let os := "Compiled MicroArchitecture is ".toList ++ compiled ++ ['\n']
  let os := os ++ "Running on MicroArchitecture ".toList ++ a.microArch ++ ['\n']
  if compiled = a.microArch then os
  else os ++ "WARNING: Compiled MicroArchitecture is DIFFERENT than Running one\n".toList

/-- `printCmdLine`, src/PsimagLite.h:97-100. -/
def App.printCmdLine (a : App) : Str := "PsiApp: CmdLine: ".toList ++ a.cmdLine ++ ['\n']

/-- `base64encode(os, data, flag)`, src/PsimagLite.h:102-109. -/
def base64encode (os : Str) (data : List UInt8) (flag : Bool) : Option Str := do
  let os := if flag then os ++ "PsiApp::echoBase64: Echo of [[data]] in base64\n".toList else os
  let t ← Base64.encode data
  return os ++ t ++ ['\n']

/-- `slurp(filename)`, src/PsimagLite.h:118-124; a file that cannot be opened is `none`, and then nothing is inserted. -/
def slurp (file : Option (List UInt8)) : List UInt8 := file.getD []

/-- `echoBase64(os, filename)`, src/PsimagLite.h:111-116; `disk` gives the files. -/
def echoBase64 (disk : Str → Option (List UInt8)) (os filename : Str) : Option Str :=
  base64encode (os ++ "PsiApp::echoBase64: Echo of ".toList ++ filename ++ " in base64\n".toList) (slurp (disk filename)) false

/-- `typeToString(t)`, src/TypeToString.h:12-20, where `text` is what `ss << t` prints (with ten digits of precision for a number that
is not an integer): `ss >> str` skips white space and takes the characters before the next. -/
def typeToString (text : Str) : Str := (text.dropWhile isSpace).takeWhile fun c => !isSpace c

/-- `printMap(os, x, label)`, src/Map.h:54-62; `show'` prints a value, and the entries come in the order of their keys. -/
def printMap {β : Type} (show' : β → Str) (entries : List (Str × β)) (label : Str) : Str :=
  entries.foldl (fun os e => os ++ label ++ ['['] ++ e.1 ++ "]=".toList ++ show' e.2 ++ ['\n']) []

end Verif.Host
