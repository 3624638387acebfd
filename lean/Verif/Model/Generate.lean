import Verif.Model.Streams

/-!
# The code generators

Model of the Python programs `src/signatures_generator.py`, `src/numpy_wrapper_generator.py` and
`src/vc_wrapper_generator.py`, as functions that return the text of the generated files.  Python
strings are lists of characters; `%`-formatting is concatenation; `sorted` is insertion sort.
-/

namespace Vdt.Gen
open Vdt.Txt (Text)

/-- String literals. -/
local notation "‹" s "›" => String.toList s

/-- `"…" in s` -/
def contains (needle : Text) : Text → Bool
  | [] => needle.isEmpty
  | c :: t => needle.isPrefixOf (c :: t) || contains needle t

/-- Lexicographic order of strings. -/
def leText : Text → Text → Bool
  | [], _ => true
  | _ :: _, [] => false
  | a :: s, b :: t => if a.toNat < b.toNat then true else if b.toNat < a.toNat then false else leText s t

def insert (x : Text) : List Text → List Text
  | [] => [x]
  | y :: l => if leText x y then x :: y :: l else y :: insert x l

/-- `sorted` -/
def sorted : List Text → List Text
  | [] => []
  | x :: l => insert x (sorted l)

/-! ## `src/signatures_generator.py` -/

/-- src/signatures_generator.py:14-23 -/
def LIBM_FUNCTIONS_LIST : List Text :=
  [‹"asin"›, ‹"atan"›, ‹"atan2"›, ‹"acos"›, ‹"cos"›, ‹"exp"›, ‹"log"›, ‹"sin"›, ‹"tan"›, ‹"tanh"›]

/-- src/signatures_generator.py:25-43 -/
def FUNCTIONS_LIST : List Text :=
  LIBM_FUNCTIONS_LIST ++ [‹"isqrt"›, ‹"inv"›, ‹"identity"›, ‹"identity2D"›, ‹"fast_asin"›, ‹"fast_acos"›,
    ‹"fast_atan"›, ‹"fast_atan2"›, ‹"fast_cos"›, ‹"fast_exp"›, ‹"fast_inv"›, ‹"fast_approx_inv"›, ‹"fast_log"›,
    ‹"fast_sin"›, ‹"fast_isqrt"›, ‹"fast_approx_isqrt"›, ‹"fast_tan"›, ‹"fast_tanh"›]

/-- src/signatures_generator.py:12 -/
def RESTRICT : Text := ‹"__restrict__"›

/-- src/signatures_generator.py:50-62 -/
def create_preload_signatures : Text :=
  [(‹""›, ‹"double"›), (‹"f"›, ‹"float"›), (‹""›, ‹"float"›)].foldl (fun code p =>
    LIBM_FUNCTIONS_LIST.foldl (fun code function =>
      let fpSuffix := p.1
      let fpType := p.2
      let libmFunction := function ++ fpSuffix
      let vdtFunction := ‹"vdt::fast_"› ++ libmFunction
      let vdtFunction := if fpSuffix == [] && fpType == ‹"float"› then vdtFunction ++ ‹"f"› else vdtFunction
      if function == ‹"atan2"› then
        code ++ fpType ++ ‹" "› ++ libmFunction ++ ‹"("› ++ fpType ++ ‹" x, "› ++ fpType ++ ‹" y){return "› ++ vdtFunction ++ ‹"(x,y);};\n"›
      else
        code ++ fpType ++ ‹" "› ++ libmFunction ++ ‹"("› ++ fpType ++ ‹" x){return "› ++ vdtFunction ++ ‹"(x);};\n"›) code)
    ‹"// Automatically generated signatures for preload\n\n"›

/-- src/signatures_generator.py:66-99 -/
def create_vector_signature (fcn_name : Text) (is_double is_impl : Bool) : Text :=
  let suffix := if is_double then ‹"v"› else ‹"fv"›
  let float_suffix := if is_double then ‹""› else ‹"f"›
  let type := if is_double then ‹"double"› else ‹"float"›
  let in_data_type := type ++ ‹" const * "› ++ RESTRICT
  let out_data_type := type ++ ‹"* "› ++ RESTRICT
  let new_fcn_name := fcn_name
  let two := contains ‹"atan2"› fcn_name || contains ‹"identity2D"› fcn_name
  let code :=
    if two then ‹"void "› ++ new_fcn_name ++ suffix ++ ‹"(const uint32_t size, "› ++ in_data_type ++ ‹" iarray1, "› ++ in_data_type ++
      ‹" iarray2, "› ++ out_data_type ++ ‹" oarray)"›
    else ‹"void "› ++ new_fcn_name ++ suffix ++ ‹"(const uint32_t size, "› ++ in_data_type ++ ‹" iarray, "› ++ out_data_type ++ ‹" oarray)"›
  if is_impl then
    code ++ (if two then ‹"{\n"› ++ ‹"  for (uint32_t i=0;i<size;++i)\n"› ++ ‹"    oarray[i]="› ++ new_fcn_name ++ float_suffix ++
        ‹"(iarray1[i],iarray2[i]);\n"› ++ ‹"}\n\n"›
      else ‹"{\n"› ++ ‹"  for (uint32_t i=0;i<size;++i)\n"› ++ ‹"    oarray[i]="› ++ new_fcn_name ++ float_suffix ++
        ‹"(iarray[i]);\n"› ++ ‹"}\n\n"›)
  else code ++ ‹";\n"›

/-- src/signatures_generator.py:103-109 -/
def create_vector_signatures (is_impl : Bool) : Text :=
  ‹"namespace vdt{\n"› ++
  ([true, false].flatMap fun is_double => (sorted FUNCTIONS_LIST).flatMap fun fcn_name =>
    create_vector_signature fcn_name is_double is_impl) ++
  ‹"} // end of vdt namespace"›

/-- src/signatures_generator.py:113-119 -/
def get_impl_file : Text :=
  ‹"// Automatically generated\n"› ++ ‹"#include \"vdtMath.h\"\n"› ++ create_vector_signatures true ++ ‹"\n"›

/-- src/signatures_generator.py:123-128: the contents of `vdtMath_signatures.cc`. -/
def create_impl (preloadSignatures : Bool) : Text :=
  get_impl_file ++ (if preloadSignatures then create_preload_signatures else [])

/-! ## `src/numpy_wrapper_generator.py` -/
namespace Numpy

/-- src/numpy_wrapper_generator.py:25 -/
def TEMPLATE_LIST : List Text := [‹"sqrt"›, ‹"div"›, ‹"fma"›, ‹"fmac"›]

/-- src/numpy_wrapper_generator.py:13-27 -/
def FUNCTIONS_LIST : List Text :=
  [‹"asin"›, ‹"atan"›, ‹"atan2"›, ‹"cos"›, ‹"exp"›, ‹"inv"›, ‹"log"›, ‹"sin"›, ‹"sincos"›, ‹"isqrt"›, ‹"identity"›] ++ TEMPLATE_LIST

/-- src/numpy_wrapper_generator.py:43-58, `get_type_dependent_parts`: `type`, `data_type`, `suffix` -/
def parts (is_double is_vector : Bool) : Text × Text × Text :=
  let type := if is_double then ‹"double"› else ‹"float"›
  let suffix := match is_double, is_vector with
    | true, true => ‹"v"› | true, false => ‹""› | false, true => ‹"fv"› | false, false => ‹"f"›
  (type, if is_vector then type ++ ‹"* "› ++ RESTRICT else type, suffix)

/-- The shape of a function: which of the prefix tests repeated in src/numpy_wrapper_generator.py:144-147,
184-187 and 201-204 applies. -/
inductive Shape
  | one | twoToOne | oneToTwo | threeToOne
  deriving DecidableEq

/-- src/numpy_wrapper_generator.py:144-147, 184-187 and 201-204.  The first two return at the first test that
holds, the third lets the last one win; the prefixes exclude each other, so one definition serves all three. -/
def shape (fcn_name : Text) : Shape :=
  if fcn_name.take 5 == ‹"atan2"› then .twoToOne
  else if fcn_name.take 3 == ‹"div"› then .twoToOne
  else if fcn_name.take 6 == ‹"sincos"› then .oneToTwo
  else if fcn_name.take 3 == ‹"fma"› then .threeToOne
  else .one

/-- src/numpy_wrapper_generator.py:62-98: return type and prototype. -/
def prototype (s : Shape) (fcn_name : Text) (is_double is_vector : Bool) : Text × Text :=
  let (type, d, suffix) := parts is_double is_vector
  let nm := ‹"vdt_"› ++ fcn_name ++ suffix
  match s, is_vector with
  | .one, false => (type, nm ++ ‹"("› ++ d ++ ‹" x)"›)
  | .one, true => (‹"void"›, nm ++ ‹"(const "› ++ d ++ ‹" iarray, "› ++ d ++ ‹" oarray, long size)"›)
  | .threeToOne, false => (type, nm ++ ‹"("› ++ d ++ ‹" x, "› ++ d ++ ‹" y, "› ++ d ++ ‹" z)"›)
  | .threeToOne, true => (‹"void"›, nm ++ ‹"(const "› ++ d ++ ‹" iarray1, const "› ++ d ++ ‹" iarray2, const "› ++ d ++ ‹" iarray3, "› ++ d ++ ‹" oarray, long size)"›)
  | .twoToOne, false => (type, nm ++ ‹"("› ++ d ++ ‹" x, "› ++ d ++ ‹" y)"›)
  | .twoToOne, true => (‹"void"›, nm ++ ‹"(const "› ++ d ++ ‹" iarray1, const "› ++ d ++ ‹" iarray2, "› ++ d ++ ‹" oarray, long size)"›)
  | .oneToTwo, false => (‹"void"›, nm ++ ‹"("› ++ d ++ ‹" x, "› ++ d ++ ‹" * o1,  "› ++ d ++ ‹" * o2)"›)
  | .oneToTwo, true => (‹"void"›, nm ++ ‹"(const "› ++ d ++ ‹" iarray, "› ++ d ++ ‹" oarray1,  "› ++ d ++ ‹" oarray2, long size)"›)

/-- src/numpy_wrapper_generator.py:115-154 -/
def get_function_code (fcn_name : Text) (is_vector : Bool) : Text :=
  match shape fcn_name, is_vector with
  | .threeToOne, true => ‹"{"› ++ ‹"for (long i=0;i<size;++i) {oarray[i]=vdt::fast_"› ++ fcn_name ++ ‹"(iarray1[i],iarray2[i],iarray3[i]);};"› ++ ‹"}"›
  | .threeToOne, false => ‹"{return vdt::fast_"› ++ fcn_name ++ ‹"(x,y,z);}"›
  | .twoToOne, true => ‹"{"› ++ ‹"for (long i=0;i<size;++i) {oarray[i]=vdt::fast_"› ++ fcn_name ++ ‹"(iarray1[i],iarray2[i]);};"› ++ ‹"}"›
  | .twoToOne, false => ‹"{return vdt::fast_"› ++ fcn_name ++ ‹"(x,y);}"›
  | .oneToTwo, true => ‹"{"› ++ ‹"for (long i=0;i<size;++i) {vdt::fast_"› ++ fcn_name ++ ‹"(iarray[i],oarray1[i],oarray2[i]);};"› ++ ‹"}"›
  | .oneToTwo, false => ‹"{vdt::fast_"› ++ fcn_name ++ ‹"(x,*o1,*o2);}"›
  | .one, true => ‹"{"› ++ ‹"for (long i=0;i<size;++i) {oarray[i]=vdt::fast_"› ++ fcn_name ++ ‹"(iarray[i]);};"› ++ ‹"}"›
  | .one, false => ‹"{return vdt::fast_"› ++ fcn_name ++ ‹"(x);}"›

/-- src/numpy_wrapper_generator.py:158-193 -/
def get_return_code (fcn_name : Text) (is_vector : Bool) : Text :=
  match shape fcn_name, is_vector with
  | .threeToOne, true => ‹"fat_vdt_"› ++ fcn_name ++ ‹"v(iarray1,iarray2,iarray3,oarray,size);"›
  | .threeToOne, false => ‹"return fat_vdt_"› ++ fcn_name ++ ‹"(x,y,z);"›
  | .twoToOne, true => ‹"fat_vdt_"› ++ fcn_name ++ ‹"v(iarray1,iarray2,oarray,size);"›
  | .twoToOne, false => ‹"return fat_vdt_"› ++ fcn_name ++ ‹"(x,y);"›
  | .oneToTwo, true => ‹"fat_vdt_"› ++ fcn_name ++ ‹"v(iarray,oarray1,oarray2,size);"›
  | .oneToTwo, false => ‹"fat_vdt_"› ++ fcn_name ++ ‹"(x,o1,o2);"›
  | .one, true => ‹"fat_vdt_"› ++ fcn_name ++ ‹"v(iarray,oarray,size);"›
  | .one, false => ‹"return fat_vdt_"› ++ fcn_name ++ ‹"(x);"›

/-- src/numpy_wrapper_generator.py:199-220 -/
def create_Wrapper_signature (fcn_name : Text) (is_double is_vector is_impl : Bool) : Text :=
  let (ret, sign) := prototype (shape fcn_name) fcn_name is_double is_vector
  let vdt_name := if is_double then fcn_name else if TEMPLATE_LIST.contains fcn_name then fcn_name else fcn_name ++ ‹"f"›
  let fcn_name := if is_double then fcn_name else fcn_name ++ ‹"f"›
  let ss := if is_vector then ‹"v"› else ‹""›
  let fatM := ‹"FAT"› ++ fcn_name ++ ss
  if is_impl then
    ‹"#define "› ++ fatM ++ ‹" fat_"› ++ sign ++ get_function_code vdt_name is_vector ++
    ‹"\nnamespace {FATLIB("› ++ ret ++ ‹","› ++ fatM ++ ‹")}\n"› ++
    ‹"extern \"C\"{"› ++ ret ++ ‹" "› ++ sign ++ ‹"{"› ++ get_return_code fcn_name is_vector ++ ‹"}}\n\n"›
  else ret ++ ‹" "› ++ sign ++ ‹";\n"›

/-- src/numpy_wrapper_generator.py:224-230 -/
def create_Wrapper_signatures (is_impl : Bool) : Text :=
  [false, true].flatMap fun is_vector => [true, false].flatMap fun is_double => (sorted FUNCTIONS_LIST).flatMap fun fcn_name =>
    create_Wrapper_signature fcn_name is_double is_vector is_impl

/-- src/numpy_wrapper_generator.py:235-247 -/
def get_python_function (fcn_name : Text) (is_double is_vector : Bool) : Text :=
  let fcn_name := if is_double then fcn_name else fcn_name ++ ‹"f"›
  if is_vector then
    let fn := ‹"vdt_"› ++ fcn_name
    if fcn_name.take 5 == ‹"atan2"› then ‹"def "› ++ fn ++ ‹"(vi1,vi2): return vdt_invoke2to1(\""› ++ fn ++ ‹"\",vi1,vi2)"› ++ ‹"\n"›
    else if fcn_name.take 6 == ‹"sincos"› then ‹"def "› ++ fn ++ ‹"(vi): return vdt_invoke1to2(\""› ++ fn ++ ‹"\",vi)"› ++ ‹"\n"›
    else ‹"def "› ++ fn ++ ‹"(vi): return vdt_invoke(\""› ++ fn ++ ‹"\",vi)"› ++ ‹"\n"›
  else []

/-- src/numpy_wrapper_generator.py:252-261: the text of `vdt_ctypes.py`. -/
def create_python : Text :=
  ‹"from vdtBase import *\n"› ++
  [false, true].flatMap fun is_vector => [true, false].flatMap fun is_double => (sorted FUNCTIONS_LIST).flatMap fun fcn_name =>
    get_python_function fcn_name is_double is_vector

/-- src/numpy_wrapper_generator.py:281-289: the functions registered by the loop. -/
def registered : List Text := (sorted FUNCTIONS_LIST).filter fun n =>
  !(n.take 5 == ‹"atan2"›) && !(n.take 6 == ‹"sincos"›) && !(n.take 3 == ‹"div"›) && !(n.take 3 == ‹"fma"›)

/-- The tables of `vdtNumpyWrapper.h` (src/numpy_wrapper_generator.py:268-301) as data: the entries of `data` and of
`fname`. -/
def dataTable : List Text := registered.flatMap fun n => [‹"vdt_"› ++ n ++ ‹"fv"›, ‹"vdt_"› ++ n ++ ‹"v"›]
def fnameTable : List Text := registered.map fun n => ‹"vdt_"› ++ n

/-- The names in the Python 3 module, src/vdtNumpyWrapper.c:180-197.  `fname+i` (line 184) is the address of a pointer
and is used as the address of a name: `bytes i` is what is found there, the bytes of the pointer `fname[i]`. -/
def py3Module (bytes : Nat → Text) : List Text :=
  (List.range fnameTable.length).map bytes ++ [‹"vdt_sincos"›, ‹"vdt_atan2"›]

/-- The names in the Python 2 module, src/vdtNumpyWrapper.c:217-249 -/
def py2Module : List Text := fnameTable ++
  [‹"vdt_sincos"›, ‹"vdt_atan2"›, ‹"vdt_div"›, ‹"vdt_fma"›, ‹"vdt_fmac"›]

end Numpy

/-! ## `src/vc_wrapper_generator.py` -/
namespace VcGen

/-- src/vc_wrapper_generator.py:11-18 -/
def FUNCTIONS_LIST : List Text := [‹"asin"›, ‹"atan"›, ‹"cos"›, ‹"inv"›, ‹"log"›, ‹"sin"›, ‹"isqrt"›, ‹"identity"›]

/-- src/vc_wrapper_generator.py:55-62 -/
def vcName (fcn_name : Text) : Text :=
  if fcn_name == ‹"inv"› then ‹"reciprocal"› else if fcn_name == ‹"isqrt"› then ‹"rsqrt"› else fcn_name

/-- src/vc_wrapper_generator.py:66-97 -/
def get_function_code (fcn_name vc_data_type : Text) (is_vector : Bool) : Text :=
  if is_vector then
    ‹"{\n"› ++ ‹"\t"› ++ vc_data_type ++ ‹" in,out;\n"› ++ ‹"\tconst uint32_t vcSize = "› ++ vc_data_type ++ ‹"::Size;\n"› ++
    ‹"\tuint32_t step,i;\n"› ++ ‹"\tfor(step=0;step < size-(size%vcSize); step += vcSize){\n"› ++
    ‹"\t   in.load(iarray+step, Vc::Unaligned);\n"› ++
    (if fcn_name == ‹"identity"› then ‹"\t   in.store(oarray+step,Vc::Unaligned);\n"›
     else ‹"\t   Vc::"› ++ vcName fcn_name ++ ‹"(in).store(oarray+step,Vc::Unaligned);\n"›) ++
    ‹"\t}\n"› ++ ‹"\tuint32_t tail = size-step;\n"› ++ ‹"\tfor(i=0;i<tail;i++)\n"› ++ ‹"\t   in[i]=iarray[step+i];\n"› ++
    (if fcn_name == ‹"identity"› then ‹"\tout = in;\n"› else ‹"\tout = Vc::"› ++ vcName fcn_name ++ ‹"(in);\n"›) ++
    ‹"\tfor(i=0;i<tail;i++)\n"› ++ ‹"\t   oarray[step+i]=out[i];\n}\n\n"›
  else
    ‹"{\n"› ++ ‹"\t"› ++ vc_data_type ++ ‹" in;\n"› ++ ‹"\tin[0] = x;\n"› ++
    (if fcn_name == ‹"identity"› then ‹"\t"› ++ vc_data_type ++ ‹" out = in;\n\treturn out[0];\n}\n\n"›
     else ‹"\treturn Vc::"› ++ vcName fcn_name ++ ‹"(in)[0];\n}\n\n"›)

/-- src/vc_wrapper_generator.py:45-50 with 25-41: prototype and Vc type. -/
def prototype (fcn_name : Text) (is_double is_vector : Bool) : Text × Text :=
  let (type, d, suffix) := Numpy.parts is_double is_vector
  (if is_vector then ‹"void vc_"› ++ fcn_name ++ suffix ++ ‹"(const uint32_t size, "› ++ d ++ ‹" iarray, "› ++ d ++ ‹" oarray)"›
   else type ++ ‹" vc_"› ++ fcn_name ++ suffix ++ ‹"("› ++ d ++ ‹" x)"›, ‹"Vc::"› ++ type ++ ‹"_v"›)

/-- src/vc_wrapper_generator.py:101-107 -/
def create_vcWrapper_signature (fcn_name : Text) (is_double is_vector is_impl : Bool) : Text :=
  let (code, vc_type) := prototype fcn_name is_double is_vector
  if is_impl then code ++ get_function_code fcn_name vc_type is_vector else code ++ ‹";\n"›

/-- src/vc_wrapper_generator.py:111-117 -/
def create_vcWrapper_signatures (is_impl : Bool) : Text :=
  [false, true].flatMap fun is_vector => [true, false].flatMap fun is_double => (sorted FUNCTIONS_LIST).flatMap fun fcn_name =>
    create_vcWrapper_signature fcn_name is_double is_vector is_impl

end VcGen
end Vdt.Gen
