import Verif.Model.Generate

/-!
# The build configuration

Model of the CMake files as programs of a small language with the commands they use, together with
the meaning of these commands, and of the command line of `src/signatures_generator.py`.  Messages
other than fatal errors, output directories, targets and link lines are left out.  A variable has a text or is
not defined; the cache is not separated from ordinary variables, since no name is used for both.
-/

namespace Vdt.Build
open Vdt.Txt (Text)

/-! ## The language -/

abbrev Env := String → Option String

/-- A part of an argument: text as it stands, or the reference `${v}`. -/
inductive Piece
  | lit (s : String)
  | ref (v : String)

/-- Conditions of `if`. -/
inductive Cond
  | arg (t : List Piece)
  | not (c : Cond)
  | and (c d : Cond)
  | or (c d : Cond)
  | streq (a b : List Piece)
  | verLess (v w : String)
  | exist (t : List Piece)

inductive Cmd
  | skip
  | set (v : String) (t : List Piece)
  | option (v : String) (dflt : String)
  | fatal
  | exec (t : List Piece)
  | ite (c : Cond) (a b : Cmd)
  | seq (a b : Cmd)

infixr:65 " ;; " => Cmd.seq

/-- `if(NAME)` -/
def name (v : String) : Cond := .arg [.lit v]
/-- `if(c) a endif()` -/
def when (c : Cond) (a : Cmd) : Cmd := .ite c a .skip

/-- Expansion of references; an undefined variable gives the empty text. -/
def expand (e : Env) : List Piece → String
  | [] => ""
  | .lit s :: t => s ++ expand e t
  | .ref v :: t => (e v).getD "" ++ expand e t

/-- The constants that stand for false, in any case of letters, and the ending `-NOTFOUND`. -/
def isOff (s : String) : Bool :=
  ["", "0", "OFF", "NO", "FALSE", "N", "IGNORE", "NOTFOUND"].any (fun k => s.toList.map Char.toUpper == k.toList)
    || "-NOTFOUND".toList.isSuffixOf s.toList

/-- The constants that stand for true.  Simplified: other numbers than 1 are not constants. -/
def isOn (s : String) : Bool :=
  ["1", "ON", "YES", "TRUE", "Y"].any fun k => s.toList.map Char.toUpper == k.toList

/-- The truth of an unquoted argument of `if`: nothing at all is false, a constant is what it stands for, and
otherwise it is the name of a variable, true unless undefined or a false constant. -/
def truth (e : Env) (s : String) : Bool :=
  if s = "" then false
  else if isOn s then true
  else if isOff s then false
  else match e s with
    | none => false
    | some x => !isOff x

/-- The numbers of a version, separated by points; other characters end it. -/
def verNumbers (acc : Nat) : Text → List Nat
  | [] => [acc]
  | c :: t =>
    if c = '.' then acc :: verNumbers 0 t
    else match Txt.digitVal c with
      | some d => if d < 10 then verNumbers (acc * 10 + d) t else [acc]
      | none => [acc]

/-- Comparison of versions; missing numbers are zero. -/
def verBelow : List Nat → List Nat → Bool
  | _, [] => false
  | [], b :: l => decide (0 < b) || verBelow [] l
  | a :: k, b :: l => decide (a < b) || (decide (a = b) && verBelow k l)

/-- The value of a condition; `ex` tells which files exist. -/
def Cond.eval (ex : String → Bool) (e : Env) : Cond → Bool
  | .arg t => truth e (expand e t)
  | .not c => !c.eval ex e
  | .and c d => c.eval ex e && d.eval ex e
  | .or c d => c.eval ex e || d.eval ex e
  | .streq a b => expand e a == expand e b
  | .verLess v w => verBelow (verNumbers 0 ((e v).getD v).toList) (verNumbers 0 w.toList)
  | .exist t => ex (expand e t)

/-- Variables and the programs executed so far. -/
structure State where
  env : Env
  log : List String

def assign (e : Env) (v s : String) : Env := fun w => if w = v then some s else e w

/-- Execution; `none` after a fatal error. -/
def Cmd.run (ex : String → Bool) : Cmd → State → Option State
  | .skip, s => some s
  | .set v t, s => some { s with env := assign s.env v (expand s.env t) }
  | .option v d, s => some (if s.env v = none then { s with env := assign s.env v d } else s)
  | .fatal, _ => none
  | .exec t, s => some { s with log := s.log ++ [expand s.env t] }
  | .ite c a b, s => if c.eval ex s.env then a.run ex s else b.run ex s
  | .seq a b, s => (a.run ex s).bind (b.run ex)

/-! ## `CMakeLists.txt` -/

/-- CMakeLists.txt:13-23 -/
def options : Cmd :=
  .option "DIAG" "OFF" ;; .option "AVX" "OFF" ;; .option "AVX2" "OFF" ;; .option "FMA" "OFF" ;;
  .option "USERFLAGS" "OFF" ;; .option "SSE" "ON" ;; .option "NEON" "OFF" ;; .option "BUILD_SHARED_LIBS" "ON" ;;
  .option "PRELOAD" "OFF" ;; .option "USE_VC" "OFF" ;; .option "DEBUG" "OFF"

/-- `"${CMAKE_CXX_COMPILER_ID}" STREQUAL "…"` -/
def compiler (id : String) : Cond := .streq [.ref "CMAKE_CXX_COMPILER_ID"] [.lit id]
def older (w : String) : Cond := .verLess "CMAKE_CXX_COMPILER_VERSION" w

/-- CMakeLists.txt:27-49 -/
def check : Cmd :=
  .ite (compiler "GNU")
    (when (older "4.8") (.fatal ;; .set "COMP_IS_GCC" [.lit "TRUE"]))
  (.ite (compiler "AppleClang")
    (when (older "5.0") .fatal ;; .set "COMP_IS_CLANG" [.lit "TRUE"])
  (.ite (compiler "Clang")
    (when (older "3.3") .fatal ;; .set "COMP_IS_CLANG" [.lit "TRUE"])
  (.ite (compiler "Intel")
    (when (older "15.0") (.fatal ;; .set "COMP_IS_ICC" [.lit "TRUE"]))
    .skip)))

/-- CMakeLists.txt:52-82 -/
def simd : Cmd :=
  .ite (name "NEON")
    (.set "PACKED_INSTR" [.lit "-mfpu=neon "])
    (when (.and (name "SSE") (.not (.or (name "AVX") (name "AVX2")))) (.set "PACKED_INSTR" [.lit "-msse"]) ;;
     when (.and (name "AVX") (.not (name "AVX2")))
      (.set "PACKED_INSTR" [.lit "-mavx"] ;;
       when (name "CMAKE_COMPILER_IS_ICC") (.set "PACKED_INSTR" [.lit "-xavx"])) ;;
     when (name "AVX2")
      (.set "PACKED_INSTR" [.lit "-mavx2"] ;;
       when (name "CMAKE_COMPILER_IS_ICC") (.set "PACKED_INSTR" [.lit "-xavx2"])) ;;
     when (name "FMA") (.set "FMA_INSTR" [.lit "-mfma"]))

/-- CMakeLists.txt:85-89 -/
def svml : Cmd :=
  .set "INTEL_SVML_FLAGS" [] ;;
  when (name "SVML") (.set "INTEL_SVML_FLAGS"
    [.lit "-mveclibabi=svml -L/afs/cern.ch/sw/IntelSoftware/linux/x86_64/Compiler/11.1/072/lib/intel64/ -lsvml -lirc"])

/-- CMakeLists.txt:93-116, with the macro `change_option` of CMakeDefaults.txt:3-6 -/
def vc : Cmd :=
  when (name "USE_VC")
    (.set "VC_LIB_NAME" [.ref "CMAKE_SOURCE_DIR", .lit "/Vc/libVc.a"] ;;
     .set "VC_HEADER_NAME" [.ref "CMAKE_SOURCE_DIR", .lit "/Vc/include/Vc/Vc"] ;;
     when (.not (.exist [.ref "VC_LIB_NAME"])) (.set "USE_VC" [.lit "0"]) ;;
     when (.exist [.ref "VC_LIB_NAME"])
      (when (.not (.exist [.ref "VC_HEADER_NAME"])) (.set "USE_VC" [.lit "0"])))

/-- CMakeLists.txt:119-126 -/
def diag : Cmd :=
  when (name "DIAG")
    (.set "LIBTIMING" [.lit "rt"] ;;
     when (.and (name "APPLE") (older "8.0")) (.set "LIBTIMINGAPPLE" [.lit "-framework Carbon"]))

/-- CMakeLists.txt:131-161 -/
def opts : Cmd :=
  .set "VECT_OPT" [.lit "-O3"] ;;
  when (name "CMAKE_COMPILER_IS_ICC") (.set "VECT_OPT" []) ;;
  when (.arg [.ref "COMP_IS_GCC"])
    (.set "VECTORIZER_VERBOSITY" [.lit "-ftree-vectorizer-verbose=0"] ;;
     .set "INLINE_OPT" [.lit " --param vect-max-version-for-alias-checks=50 --param inline-unit-growth=150"]) ;;
  .set "CPP11_OPT" [.lit "-std=c++11"] ;;
  .set "VERBOSITY_OPT" [.lit "-Winline"] ;;
  .set "CLANG_INLINE_DEFINE" [] ;;
  when (.arg [.ref "COMP_IS_CLANG"]) (.set "CLANG_INLINE_DEFINE" [.lit "-D__extern_always_inline=inline"]) ;;
  when (.arg [.ref "COMP_IS_ICC"]) (.set "VECTORIZER_VERBOSITY" [] ;; .set "INLINE_OPT" []) ;;
  .set "WARNING_FLAGS" [.lit "-W -Wall -Werror -Wno-error=unused-parameter"] ;;
  when (name "DEBUG") (.set "DEBUG_FLAGS" [.lit " -g"])

/-- CMakeLists.txt:164-169 -/
def flags : Cmd :=
  .set "COMMON_FLAGS" [.ref "CPP11_OPT", .lit " ", .ref "INTEL_SVML_FLAGS", .lit " ", .ref "PACKED_INSTR", .lit " ",
    .ref "FMA_INSTR", .lit " ", .ref "INLINE_OPT", .lit " ", .ref "WARNING_FLAGS", .lit " ", .ref "DEBUG_FLAGS", .lit " ",
    .ref "CLANG_INLINE_DEFINE"] ;;
  when (name "USERFLAGS") (.set "COMMON_FLAGS" [.ref "COMMON_FLAGS", .lit " ", .ref "USERFLAGS"]) ;;
  .set "LIB_FLAGS" [.ref "VERBOSITY_OPT", .lit " ", .ref "VECT_OPT", .lit " ", .ref "VECTORIZER_VERBOSITY", .lit " ",
    .ref "COMMON_FLAGS"] ;;
  .set "DIAG_FLAGS" [.ref "LIBTIMINGAPPLE", .lit " ", .ref "VECT_OPT", .lit " ", .ref "COMMON_FLAGS"]

/-- CMakeLists.txt:176-182 -/
def dirs : Cmd :=
  .set "SRC_DIR" [.ref "CMAKE_SOURCE_DIR", .lit "/src"] ;;
  .set "LIB_DIR" [.ref "CMAKE_SOURCE_DIR", .lit "/lib"] ;;
  .set "INC_DIR" [.ref "CMAKE_SOURCE_DIR", .lit "/include"]

/-- src/CMakeLists.txt:7-17 -/
def src : Cmd :=
  .ite (name "PRELOAD") (.set "SIGGENOPTS" [.lit " -p"]) (.set "SIGGENOPTS" [.lit " "]) ;;
  .exec [.lit "cd src;", .ref "Python_EXECUTABLE", .lit " ", .ref "CMAKE_SOURCE_DIR", .lit "/src/signatures_generator.py ",
    .ref "SIGGENOPTS", .lit " -o ", .ref "CMAKE_SOURCE_DIR", .lit "/src;cd -"] ;;
  when (name "USE_VC") (.exec [.lit "cd src;", .ref "Python_EXECUTABLE", .lit " vc_wrapper_generator.py;cd -"])

/-- CMakeLists.txt:13-187 without lib and progs. -/
def configure : Cmd :=
  options ;; check ;; simd ;; svml ;; vc ;; diag ;; opts ;; flags ;; dirs ;; src

/-- lib/CMakeLists.txt:4: the flags of the library; lib/CMakeLists.txt:19: its source file. -/
def libFlags (e : Env) : String := expand e [.ref "LIB_FLAGS"]
def libSource (e : Env) : String := expand e [.ref "SRC_DIR", .lit "/vdtMath_signatures.cc"]

/-- progs/CMakeLists.txt:2, progs/units/CMakeLists.txt:2: the flags of the diagnostic programs. -/
def progFlags (e : Env) : String := expand e [.ref "DIAG_FLAGS"]

/-- include/externalLibcfg.h.cmake:10-14 after `configure_file` (src/CMakeLists.txt:18): is `_VC_AVAILABLE_` defined? -/
def vcAvailable (e : Env) : Bool := !isOff ((e "USE_VC").getD "")

/-! ## The command line -/

/-- The parts of a text between a separating character. -/
def splitAt (sep : Char) (acc : Text) : Text → List Text
  | [] => [acc.reverse]
  | c :: t => if c = sep then acc.reverse :: splitAt sep [] t else splitAt sep (c :: acc) t

/-- The words of a command line or of a list of flags: the parts between blanks that are not empty. -/
def words (t : Text) : List Text := (splitAt ' ' [] t).filter fun w => !w.isEmpty

/-- The commands of a shell line, each as the list of its words.  Simplified: only `;` and blanks are
special to the shell. -/
def shell (line : Text) : List (List Text) := (splitAt ';' [] line).map words

/-- A cluster of short options, `c` and then `t`; the result says whether `-p` was given and, for `-o`, the value
that follows in the same word. -/
def cluster (pre : Bool) : Text → Option (Bool × Option Text)
  | [] => some (pre, none)
  | c :: t =>
    if c = 'p' then cluster true t
    else if c = 'o' then some (pre, some t)
    else none

/-- src/signatures_generator.py:133-143: `OptionParser` with the options `-p` and `-o`; `none` if the program ends with
an error or with the help text.  Words that do not begin with `-` are ignored, as is everything after `--`. -/
def parseArgs (pre : Bool) (out : Text) : List Text → Option (Bool × Text)
  | [] => some (pre, out)
  | [a] =>
    match a with
    | '-' :: c :: t =>
      if c = '-' then (if t = [] then some (pre, out) else none)
      else match cluster pre (c :: t) with
        | none => none
        | some (p, none) => some (p, out)
        | some (_, some []) => none
        | some (p, some v) => some (p, v)
    | _ => some (pre, out)
  | a :: b :: r =>
    match a with
    | '-' :: c :: t =>
      if c = '-' then (if t = [] then some (pre, out) else none)
      else match cluster pre (c :: t) with
        | none => none
        | some (p, none) => parseArgs p out (b :: r)
        | some (p, some []) => parseArgs p b r
        | some (p, some v) => parseArgs p v (b :: r)
    | _ => parseArgs pre out (b :: r)

/-- `os.path.join` of a directory and a file name. -/
def joinPath (dir file : Text) : Text :=
  match dir.getLast? with
  | none => file
  | some c => if c = '/' then dir ++ file else dir ++ '/' :: file

/-- src/signatures_generator.py:123-145: the file written, and its contents. -/
def generator (args : List Text) : Option (Text × Text) :=
  (parseArgs false "./".toList args).map fun r =>
    (joinPath r.2 "vdtMath_signatures.cc".toList, Gen.create_impl r.1)

/-! ## Headers -/

/-- CMakeLists.txt:201-217: the installed headers. -/
def installed : List String :=
  ["asin.h", "atan.h", "tanh.h", "atan2.h", "cos.h", "exp.h", "identity.h", "inv.h", "log.h", "sincos.h", "sin.h", "sqrt.h",
   "tan.h", "vdtcore_common.h", "vdtMath.h"]

/-- The headers of the library with the headers they include in quotes (include/asin.h:30, include/atan.h:30,
include/atan2.h:30-31, include/cos.h:15, include/exp.h:30, include/inv.h:28-29, include/log.h:30, include/sin.h:30,
include/sincos.h:27, include/sqrt.h:29, include/tan.h:30-31, include/tanh.h:28, include/vdtMath.h:6-23,
include/vdtcore_common.h:32). -/
def library : List (String × List String) :=
  [("asin.h", ["vdtcore_common.h"]), ("atan.h", ["vdtcore_common.h"]), ("atan2.h", ["vdtcore_common.h", "atan.h"]),
   ("cos.h", ["sincos.h"]), ("exp.h", ["vdtcore_common.h"]), ("identity.h", []), ("inv.h", ["vdtcore_common.h", "sqrt.h"]),
   ("log.h", ["vdtcore_common.h"]), ("sin.h", ["sincos.h"]), ("sincos.h", ["vdtcore_common.h"]), ("sqrt.h", ["vdtcore_common.h"]),
   ("tan.h", ["vdtcore_common.h", "sincos.h"]), ("tanh.h", ["vdtcore_common.h"]),
   ("vdtMath.h", ["sin.h", "asin.h", "cos.h", "tan.h", "tanh.h", "atan.h", "atan2.h", "exp.h", "log.h", "sqrt.h", "inv.h",
     "identity.h"]),
   ("vdtcore_common.h", ["inttypes.h"]), ("stdwrap.h", []), ("externalLibcfg.h", [])]

/-- The headers in include/diagnostic (include/diagnostic/vdtdiag_fcnComparison.h:28-30, include/diagnostic/vdtdiag_fcnPerformance.h:5,
include/diagnostic/vdtdiag_fcnResponse.h:9-14, include/diagnostic/vdtdiag_fcnTuples.h:34-45,
include/diagnostic/vdtdiag_filePersistence.h:33, include/diagnostic/vdtdiag_helper.h:31-35,
include/diagnostic/vdtdiag_interfaces.h:28-29, include/diagnostic/vdtdiag_random.h:29-31); `vdtdiag_vcWrapper.h` is included if Vc is available. -/
def diagnostic (vc : Bool) : List (String × List String) :=
  [("vdtdiag_fcnComparison.h", ["vdtdiag_helper.h", "vdtdiag_filePersistence.h", "vdtdiag_interfaces.h"]),
   ("vdtdiag_fcnPerformance.h", ["vdtdiag_helper.h"]),
   ("vdtdiag_fcnResponse.h", ["assert.h", "vdtdiag_interfaces.h", "vdtdiag_filePersistence.h"]),
   ("vdtdiag_fcnTuples.h", ["vdtdiag_helper.h", "vdtdiag_random.h", "vdtMath.h", "externalLibcfg.h"] ++
     (if vc then ["vdtdiag_vcWrapper.h"] else [])),
   ("vdtdiag_filePersistence.h", ["vdtcore_common.h"]),
   ("vdtdiag_helper.h", ["inttypes.h", "time.h", "sys/time.h"]),
   ("vdtdiag_interfaces.h", ["assert.h", "vdtdiag_helper.h"]),
   ("vdtdiag_random.h", ["vdtcore_common.h", "vdtdiag_filePersistence.h", "vdtdiag_interfaces.h"]),
   ("vdtdiag_simpleCmd.h", [])]

/-- The programs in progs and progs/units with the headers they include (progs/vdtPerfBenchmark.cpp:8-13,
progs/vdtArithmBenchmark.cpp:12-16, progs/vdtArithmComparison.cpp:15-18 and the first lines of each file in progs/units). -/
def programs : List (String × List String) :=
  [("vdtPerfBenchmark.cpp", ["vdtdiag_random.h", "vdtMath.h", "vdtdiag_helper.h", "vdtdiag_fcnPerformance.h",
     "vdtdiag_fcnTuples.h", "vdtdiag_simpleCmd.h"]),
   ("vdtArithmBenchmark.cpp", ["vdtMath.h", "vdtdiag_random.h", "vdtdiag_fcnResponse.h", "vdtdiag_fcnTuples.h",
     "vdtdiag_simpleCmd.h"]),
   ("vdtArithmComparison.cpp", ["vdtdiag_fcnResponse.h", "vdtdiag_fcnTuples.h", "vdtdiag_fcnComparison.h",
     "vdtdiag_simpleCmd.h"]),
   ("acos_test.cpp", ["asin.h", "vdtdiag_helper.h"]), ("asin_test.cpp", ["asin.h", "vdtdiag_helper.h"]),
   ("atan2_test.cpp", ["atan2.h", "vdtdiag_helper.h"]), ("atan_test.cpp", ["atan.h", "vdtdiag_helper.h"]),
   ("cos_test.cpp", ["cos.h", "vdtdiag_helper.h"]), ("exp_test.cpp", ["exp.h", "vdtdiag_helper.h"]),
   ("fpDifferentBit.cpp", ["vdtdiag_helper.h"]), ("inv_test.cpp", ["inv.h", "vdtdiag_helper.h"]),
   ("log_test.cpp", ["log.h", "vdtdiag_helper.h"]), ("printInstSet.cpp", ["vdtdiag_helper.h"]),
   ("sin_test.cpp", ["sin.h", "vdtdiag_helper.h"]), ("sqrt_test.cpp", ["sqrt.h", "vdtdiag_helper.h"]),
   ("tan_test.cpp", ["tan.h", "vdtdiag_helper.h"]), ("tanh_test.cpp", ["tanh.h", "vdtdiag_helper.h"]),
   ("test_fcnComparison.cpp", ["vdtdiag_random.h", "vdtdiag_fcnResponse.h", "vdtdiag_fcnComparison.h", "vdtdiag_helper.h",
     "log.h", "atan2.h"]),
   ("test_fcnPerformance.cpp", ["vdtdiag_random.h", "vdtdiag_fcnPerformance.h", "vdtMath.h", "vdtdiag_helper.h"]),
   ("test_fcnResponse.cpp", ["vdtdiag_random.h", "vdtdiag_fcnResponse.h", "vdtdiag_helper.h", "exp.h", "atan2.h"]),
   ("test_randomPool.cpp", ["vdtdiag_random.h"])]

/-- Headers of the system that the sources include in quotes. -/
def system : List String := ["inttypes.h", "assert.h", "time.h", "sys/time.h"]

/-- src/vc_wrapper_generator.py:20-21,155-165, run in src (src/CMakeLists.txt:16): the files written. -/
def vcFiles : List String := ["src/vdtdiag_vcWrapper.h", "src/vdtdiag_vcWrapper.cc"]

/-- ReadMe.md:44-53: the table of functions. -/
def readme : List (List String) :=
  [["fast_exp", "fast_expf", "fast_expv", "fast_expfv"], ["fast_sin", "fast_sinf", "fast_sinv", "fast_sinfv"],
   ["fast_cos", "fast_cosf", "fast_cosv", "fast_cosfv"], ["fast_tan", "fast_tanf", "fast_tanv", "fast_tanfv"],
   ["fast_tanh", "fast_tanhf", "fast_tanhv", "fast_tanhfv"], ["fast_log", "fast_logf", "fast_logv", "fast_logfv"],
   ["fast_asin", "fast_asinf", "fast_asinv", "fast_asinfv"], ["fast_acos", "fast_acosf", "fast_acosv", "fast_acosfv"],
   ["fast_atan", "fast_atanf", "fast_atanv", "fast_atanfv"],
   ["fast_isqrt", "fast_isqrtf", "fast_isqrtv", "fast_isqrtfv"]]

end Vdt.Build
