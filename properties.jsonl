{"id": "C01", "title": "fast_exp is accurate on its whole domain", "statement": "For every double x with |x| <= 708, fast_exp(x) has defined behaviour, is finite and positive, and differs from the real number e^x by a relative error of at most 2^-51 (four half-ulps).", "quantifier": "every 64-bit pattern read as a double that satisfies the stated range", "why_tests_cant": "2^64 inputs cannot be enumerated; a sampled comparison against libm says nothing about the unsampled arguments, in particular those next to range-reduction boundaries", "anchors": ["include/exp.h:fast_exp", "include/vdtcore_common.h:fpfloor"]}
{"id": "C02", "title": "fast_exp saturates outside [-708,708]", "statement": "fast_exp(x) is +infinity for x > 708 and +0 for x < -708, +-infinity included, and the answer for arguments in range does not depend on anything else. No argument makes the call undefined behaviour.", "quantifier": "every 64-bit pattern read as a double that satisfies the stated range, and every value the machine may deliver for an out-of-range float-to-int conversion", "why_tests_cant": "2^64 inputs cannot be enumerated; a sampled comparison against libm says nothing about the unsampled arguments, in particular those next to range-reduction boundaries; undefined behaviour is invisible to a test on one machine", "anchors": ["include/exp.h:fast_exp"]}
{"id": "C03", "title": "fast_expf is accurate on its domain", "statement": "For every float x in [-87.25, 88.35], fast_expf(x) has defined behaviour and is within relative error 2^-22 of e^x.", "quantifier": "every 32-bit pattern read as a float that satisfies the stated range", "why_tests_cant": "a test samples arguments and compares with another library; only a proof relates the result to the real-valued function for every pattern", "anchors": ["include/exp.h:fast_expf"]}
{"id": "C04", "title": "fast_expf only overflows or underflows outside its advertised limits", "statement": "For every float x with -88 <= x <= 88.7228390 (the MINLOGF/MAXLOGF limits) fast_expf(x) is a finite positive number; above it is +infinity, below it is +0.", "quantifier": "every 32-bit pattern read as a float that satisfies the stated range", "why_tests_cant": "the failing arguments sit in two narrow intervals just inside the limits; random samples over +-5000 seldom hit them", "anchors": ["include/exp.h:fast_expf", "include/exp.h:MAXLOGF", "include/exp.h:MINLOGF"]}
{"id": "C05", "title": "fast_log is accurate on normal doubles up to 1e307", "statement": "For every normal double x with x <= 1e307, fast_log(x) is finite and |fast_log(x) - ln x| <= 2^-51 * |ln x| (relative error, also next to x = 1); in particular fast_log(1) is exactly 0.", "quantifier": "every 64-bit pattern read as a double that satisfies the stated range", "why_tests_cant": "2^64 inputs cannot be enumerated; a sampled comparison against libm says nothing about the unsampled arguments, in particular those next to range-reduction boundaries", "anchors": ["include/log.h:fast_log", "include/log.h:get_log_px", "include/log.h:get_log_qx", "include/vdtcore_common.h:getMantExponent"]}
{"id": "C06", "title": "fast_log handles the special arguments like log", "statement": "fast_log returns NaN for every negative number and -infinity, NaN for NaN, -infinity for +-0, +infinity for +infinity, and a finite number for every positive finite double.", "quantifier": "every 64-bit pattern read as a double that satisfies the stated range", "why_tests_cant": "the wrong classes (NaN, zeros, subnormals, the interval above 1e307) are not produced by the library's random test pools", "anchors": ["include/log.h:fast_log"]}
{"id": "C07", "title": "fast_logf is accurate on normal floats", "statement": "For every normal positive finite float x, |fast_logf(x) - ln x| <= 2^-22 * |ln x|.", "quantifier": "every 32-bit pattern read as a float that satisfies the stated range", "why_tests_cant": "a test samples arguments and compares with another library; only a proof relates the result to the real-valued function for every pattern", "anchors": ["include/log.h:fast_logf", "include/vdtcore_common.h:getMantExponentf"]}
{"id": "C08", "title": "fast_sin and fast_cos are accurate", "statement": "For every double x with |x| <= 2^27, fast_sin(x) and fast_cos(x) have defined behaviour, are finite and differ from the real sin x and cos x by at most 2^-51 in absolute value, whatever the octant.", "quantifier": "every 64-bit pattern read as a double that satisfies the stated range", "why_tests_cant": "2^64 inputs cannot be enumerated; a sampled comparison against libm says nothing about the unsampled arguments, in particular those next to range-reduction boundaries; the octant selection logic multiplies the number of cases", "anchors": ["include/sincos.h:reduce2quadrant", "include/sincos.h:fast_sincos", "include/sin.h:fast_sin", "include/cos.h:fast_cos"]}
{"id": "C09", "title": "sine is odd and cosine is even, bit for bit", "statement": "fast_cos(-x) and fast_cos(x) are the same bit pattern, fast_sin(-x) is fast_sin(x) with the sign bit flipped, for both precisions.", "quantifier": "every 64-bit pattern read as a double that satisfies the stated range (and every float pattern)", "why_tests_cant": "2^64 inputs cannot be enumerated; a sampled comparison against libm says nothing about the unsampled arguments, in particular those next to range-reduction boundaries", "anchors": ["include/sincos.h:fast_sincos", "include/sincos.h:fast_sincosf"]}
{"id": "C10", "title": "fast_sinf and fast_cosf are accurate", "statement": "For every float x with |x| <= 8192, fast_sinf(x) and fast_cosf(x) have defined behaviour, are finite and differ from sin x and cos x by at most 2^-22 in absolute value.", "quantifier": "every 32-bit pattern read as a float that satisfies the stated range", "why_tests_cant": "a test samples arguments and compares with another library; only a proof relates the result to the real-valued function for every pattern", "anchors": ["include/sincos.h:fast_sincosf", "include/sincos.h:fast_sincosf_m45_45"]}
{"id": "C11", "title": "sin and cos have defined behaviour for every finite argument", "statement": "Calling fast_sin/fast_cos/fast_sincos on any finite double never converts an out-of-range value to int (which is undefined behaviour), and NaN or infinity yield NaN.", "quantifier": "every 64-bit pattern read as a double that satisfies the stated range", "why_tests_cant": "undefined behaviour cannot be observed by running one compiled binary", "anchors": ["include/sincos.h:reduce2quadrant"]}
{"id": "C12", "title": "fast_sincos returns a point close to the unit circle", "statement": "For every double x with |x| <= 2^27 the two outputs s,c of fast_sincos satisfy |s^2+c^2-1| <= 2^-50 (floats: |x| <= 8192, 2^-21), and they are the values fast_sin(x) and fast_cos(x) return.", "quantifier": "every 64-bit pattern read as a double that satisfies the stated range", "why_tests_cant": "2^64 inputs cannot be enumerated; a sampled comparison against libm says nothing about the unsampled arguments, in particular those next to range-reduction boundaries", "anchors": ["include/sincos.h:fast_sincos"]}
{"id": "C13", "title": "fast_tan is accurate, near its poles too", "statement": "For every double x with 2^-1024 < |x| <= 2^27 fast_tan(x) is defined, finite, and |fast_tan(x) - tan x| <= 2^-47 |tan x| + 2^-78 (1 + tan(x)^2); the relative error never exceeds 2^-22 (2^-37 up to 8192, 2^-46 up to 32). For |x| <= 2^20 the second term is 2^-85 (1 + tan(x)^2), the relative error never exceeds 2^-31, and it is at most 2^-50 where 2^-20 <= |tan x| <= 2^20.", "quantifier": "every 64-bit pattern read as a double that satisfies the stated range", "why_tests_cant": "2^64 inputs cannot be enumerated; a sampled comparison against libm says nothing about the unsampled arguments, in particular those next to range-reduction boundaries", "anchors": ["include/tan.h:fast_tan", "include/tan.h:reduce2quadranttan"]}
{"id": "C14", "title": "fast_tan never turns a number into NaN", "statement": "For every finite x with |x| <= 2^20, fast_tan(x) and fast_tanf(x) are not NaN, fast_tan(+-0) = +-0 and the result is odd in x bit for bit.", "quantifier": "every 64-bit pattern read as a double that satisfies the stated range and float patterns", "why_tests_cant": "the failing inputs are subnormal numbers, which no random pool over +-5000 produces", "anchors": ["include/tan.h:fast_tan", "include/tan.h:fast_tanf"]}
{"id": "C15", "title": "fast_tanf is accurate, near its poles too", "statement": "For every float x with 2^-128 < |x| <= 8192 fast_tanf(x) is defined, finite, and |fast_tanf(x) - tan x| <= 2^-21 |tan x| + 2^-33 (1 + tan(x)^2); the relative error never exceeds 2^-9, and 2^-14 up to 128.", "quantifier": "every 32-bit pattern read as a float that satisfies the stated range", "why_tests_cant": "a test samples arguments and compares with another library; only a proof relates the result to the real-valued function for every pattern", "anchors": ["include/tan.h:fast_tanf"]}
{"id": "C16", "title": "tanh stays in [-1,1], is odd, saturates and propagates NaN", "statement": "For every double (float) x that is not NaN, |fast_tanh(x)| <= 1 and fast_tanh(-x) is fast_tanh(x) with the sign bit flipped; |x| > 20 (9.1f) gives exactly +-1; the sign of the result is the sign of x; NaN gives NaN.", "quantifier": "every 64-bit pattern read as a double that satisfies the stated range and float patterns", "why_tests_cant": "rounding could push the quotient 2t/(t*t+1) over 1 for some t; only a proof about rounding excludes all of them", "anchors": ["include/tanh.h:fast_tanh", "include/tanh.h:fast_tanhf"]}
{"id": "C17", "title": "fast_tanh is accurate", "statement": "For every finite double x, |fast_tanh(x) - tanh x| <= 2^-49 * |tanh x| + 2^-1070; for |x| >= 2^-1000 the relative error alone is at most 15.7 * 2^-53.", "quantifier": "every 64-bit pattern read as a double that satisfies the stated range", "why_tests_cant": "2^64 inputs cannot be enumerated; a sampled comparison against libm says nothing about the unsampled arguments, in particular those next to range-reduction boundaries", "anchors": ["include/tanh.h:fast_tanh"]}
{"id": "C18", "title": "fast_tanhf is accurate", "statement": "For every finite float x, |fast_tanhf(x) - tanh x| <= 2^-20 * |tanh x| + 2^-145.", "quantifier": "every 32-bit pattern read as a float that satisfies the stated range", "why_tests_cant": "a test samples arguments and compares with another library; only a proof relates the result to the real-valued function for every pattern", "anchors": ["include/tanh.h:fast_tanhf"]}
{"id": "C19", "title": "fast_atan is accurate for every real argument", "statement": "For every finite double x, |fast_atan(x) - arctan x| <= 2^-51 * |arctan x| + 2^-1073, and |fast_atan(x)| <= pi/2 rounded to double.", "quantifier": "every 64-bit pattern read as a double that satisfies the stated range", "why_tests_cant": "2^64 inputs cannot be enumerated; a sampled comparison against libm says nothing about the unsampled arguments, in particular those next to range-reduction boundaries", "anchors": ["include/atan.h:fast_atan", "include/atan.h:get_atan_px", "include/atan.h:get_atan_qx"]}
{"id": "C20", "title": "arctangent is odd bit for bit, maps infinities to +-pi/2 and NaN to NaN", "statement": "fast_atan(-x) is fast_atan(x) with the sign bit flipped; fast_atan(+-inf) is the double nearest +-pi/2; NaN gives NaN; same for fast_atanf.", "quantifier": "every 64-bit pattern read as a double that satisfies the stated range and float patterns", "why_tests_cant": "sign restoration uses a bitwise OR, which is only right if the unsigned result is never negative for any input", "anchors": ["include/atan.h:fast_atan", "include/atan.h:fast_atanf"]}
{"id": "C21", "title": "fast_atanf is accurate", "statement": "For every finite float x, |fast_atanf(x) - arctan x| <= 2^-21 |arctan x| + 2^-148, and |fast_atanf(x)| does not exceed the float nearest pi/2.", "quantifier": "every 32-bit pattern read as a float that satisfies the stated range", "why_tests_cant": "a test samples arguments and compares with another library; only a proof relates the result to the real-valued function for every pattern", "anchors": ["include/atan.h:fast_atanf"]}
{"id": "C22", "title": "fast_atan2 returns the angle of the vector (x,y)", "statement": "For all finite doubles x,y, not both zero, fast_atan2(y,x) differs from the argument A of the complex number x+iy by at most 2^-50 and by at most 2^-50 |A| + 2^-1072, lies in [-pi,pi], is negative exactly when y < 0, and is at most pi/2 in absolute value for x >= 0 and at least pi/2 for x < 0 (pi/2 rounded to double).", "quantifier": "every pair of doubles in the stated range", "why_tests_cant": "2^128 pairs and eight octants", "anchors": ["include/atan2.h:fast_atan2"]}
{"id": "C23", "title": "fast_atan2 special cases agree with the C standard", "statement": "fast_atan2(+-0,x>0) = +-0, fast_atan2(+-0,x<0) = +-pi, fast_atan2(y,0) = +-pi/2, fast_atan2(0,0) = 0, infinities give the limiting angles, NaN gives NaN, and fast_atan2(-y,x) = -fast_atan2(y,x).", "quantifier": "every pair of doubles (and floats) of the stated classes", "why_tests_cant": "classes such as signed zeros and pairs of infinities are not generated by random pools", "anchors": ["include/atan2.h:fast_atan2", "include/atan2.h:fast_atan2f"]}
{"id": "C24", "title": "fast_atan2f returns the angle of the vector (x,y)", "statement": "For all finite floats x,y, not both zero, fast_atan2f(y,x) differs from the argument A of x+iy by at most 2^-20 and by at most 2^-20 |A| + 2^-147, does not exceed pi rounded to float, and lies in the quadrant of (x,y).", "quantifier": "every pair of floats in the stated range", "why_tests_cant": "2^64 pairs", "anchors": ["include/atan2.h:fast_atan2f"]}
{"id": "C25", "title": "asin/acos reject arguments outside [-1,1] and are odd", "statement": "fast_asin(x), fast_acos(x) (and the float versions) are NaN exactly when x is NaN or |x| > 1; fast_asin(-x) is fast_asin(x) with the sign bit flipped; fast_asin(+-0) = +-0.", "quantifier": "every 64-bit pattern read as a double that satisfies the stated range and float patterns", "why_tests_cant": "the NaN arises implicitly from the square root of a negative number and must survive a sign-restoring OR and a select", "anchors": ["include/asin.h:fast_asin", "include/asin.h:fast_asinf", "include/asin.h:fast_acos", "include/asin.h:fast_acosf"]}
{"id": "C26", "title": "fast_asin is accurate", "statement": "For every double x with |x| <= 1, |fast_asin(x) - arcsin x| <= 2^-51 * |arcsin x|, and |fast_asin(x)| is at most the double nearest to pi/2.", "quantifier": "every 64-bit pattern read as a double that satisfies the stated range", "why_tests_cant": "2^64 inputs cannot be enumerated; a sampled comparison against libm says nothing about the unsampled arguments, in particular those next to range-reduction boundaries", "anchors": ["include/asin.h:fast_asin"]}
{"id": "C27", "title": "fast_acos is accurate", "statement": "For every double x with |x| <= 1, |fast_acos(x) - arccos x| <= 2^-50, and fast_acos(x) lies in [0, pi].", "quantifier": "every 64-bit pattern read as a double that satisfies the stated range", "why_tests_cant": "2^64 inputs cannot be enumerated; a sampled comparison against libm says nothing about the unsampled arguments, in particular those next to range-reduction boundaries", "anchors": ["include/asin.h:fast_acos"]}
{"id": "C28", "title": "fast_asinf and fast_acosf are accurate", "statement": "For every float x with |x| <= 1, |fast_asinf(x) - arcsin x| is at most 2^-20 * |arcsin x| and at most 2^-21, |fast_acosf(x) - arccos x| is at most 2^-20, |fast_asinf(x)| is at most the float nearest to pi/2 and fast_acosf(x) lies between 0 and the float nearest to pi.", "quantifier": "every 32-bit pattern read as a float that satisfies the stated range", "why_tests_cant": "a test samples arguments and compares with another library; only a proof relates the result to the real-valued function for every pattern", "anchors": ["include/asin.h:fast_asinf", "include/asin.h:fast_acosf"]}
{"id": "C29", "title": "fast_isqrt and fast_approx_isqrt converge to 1/sqrt(x)", "statement": "For every positive normal double x, fast_isqrt(x) has relative error at most 2^-50 and fast_approx_isqrt(x) at most 2^-34 with respect to 1/sqrt(x).", "quantifier": "every 64-bit pattern read as a double that satisfies the stated range", "why_tests_cant": "2^64 inputs cannot be enumerated; a sampled comparison against libm says nothing about the unsampled arguments, in particular those next to range-reduction boundaries; the starting point is an integer subtraction on the bit pattern", "anchors": ["include/sqrt.h:fast_isqrt_general", "include/sqrt.h:fast_isqrt", "include/sqrt.h:fast_approx_isqrt"]}
{"id": "C30", "title": "fast_isqrtf and fast_approx_isqrtf converge to 1/sqrt(x)", "statement": "For every positive normal float x, fast_isqrtf(x) has relative error at most 2^-17 and fast_approx_isqrtf(x) at most 2^-9 with respect to 1/sqrt(x).", "quantifier": "every 32-bit pattern read as a float that satisfies the stated range", "why_tests_cant": "a test samples arguments and compares with another library; only a proof relates the result to the real-valued function for every pattern", "anchors": ["include/sqrt.h:fast_isqrtf_general"]}
{"id": "C31", "title": "fast_inv and fast_approx_inv converge to 1/x with the sign of x", "statement": "For every normal double x whose reciprocal is normal, fast_inv(x) has relative error at most 2^-49 and fast_approx_inv(x) at most 2^-33, and the sign of the result is the sign of x; same structure for the float versions. For the normal x whose reciprocal is subnormal the same bounds hold with half of the smallest positive number added.", "quantifier": "every 64-bit pattern read as a double that satisfies the stated range and float patterns", "why_tests_cant": "2^64 inputs cannot be enumerated; a sampled comparison against libm says nothing about the unsampled arguments, in particular those next to range-reduction boundaries", "anchors": ["include/inv.h:fast_inv_general", "include/inv.h:fast_invf_general"]}
{"id": "C32", "title": "isqrt and inv special values", "statement": "fast_isqrt(+0) and fast_inv(+-0) are infinite, fast_isqrt(+inf) and fast_inv(+-inf) are 0, fast_isqrt of a negative number is NaN, NaN gives NaN; fast_inv(-x) is fast_inv(x) with the sign bit flipped for every x.", "quantifier": "every 64-bit pattern read as a double that satisfies the stated range", "why_tests_cant": "special values are not in the random pools", "anchors": ["include/sqrt.h:fast_isqrt_general", "include/inv.h:fast_inv_general"]}
{"id": "C33", "title": "getMantExponent splits a number into mantissa and exponent", "statement": "For every normal double (float) x, getMantExponent returns m and e with 1/2 <= |m| < 1, sign(m)=sign(x) and x = m * 2^(e+1) exactly.", "quantifier": "every 64-bit pattern read as a double that satisfies the stated range and float patterns", "why_tests_cant": "2^64 inputs cannot be enumerated; a sampled comparison against libm says nothing about the unsampled arguments, in particular those next to range-reduction boundaries", "anchors": ["include/vdtcore_common.h:getMantExponent", "include/vdtcore_common.h:getMantExponentf"]}
{"id": "C34", "title": "fpfloor is the floor function on the int range", "statement": "For every double (float) x with |x| < 2^31, fpfloor(x) has defined behaviour and equals the real floor of x.", "quantifier": "every 64-bit pattern read as a double that satisfies the stated range and float patterns", "why_tests_cant": "negative integers and negative zero are measure-zero inputs", "anchors": ["include/vdtcore_common.h:fpfloor"]}
{"id": "C35", "title": "bit reinterpretation helpers are inverse and touch only the masked bits", "statement": "uint642dp/dp2uint64 and uint322sp/sp2uint32 are mutually inverse on all patterns; AND/OR/XOR with a sign mask change the sign of the number and nothing else.", "quantifier": "every 64-bit and every 32-bit pattern, NaN payloads included", "why_tests_cant": "2^64 patterns", "anchors": ["include/vdtcore_common.h:uint642dp", "include/vdtcore_common.h:dp2uint64", "include/vdtcore_common.h:dpORuint64", "include/vdtcore_common.h:dpXORuint64", "include/vdtcore_common.h:getSignMask"]}
{"id": "C36", "title": "fast_log inverts fast_exp", "statement": "For every double x with |x| <= 700, both calls have defined behaviour and |fast_log(fast_exp(x)) - x| <= 2^-51 * (|x| + 1 + 2^-40).", "quantifier": "every 64-bit pattern read as a double that satisfies the stated range", "why_tests_cant": "2^64 inputs cannot be enumerated; a sampled comparison against libm says nothing about the unsampled arguments, in particular those next to range-reduction boundaries", "anchors": ["include/exp.h:fast_exp", "include/log.h:fast_log"]}
{"id": "C37", "title": "array functions apply the scalar function element by element", "statement": "For every size and contents, a call f_v(size, in, out) leaves out[i] = f(in[i]) for i < size, leaves every other memory cell unchanged, and reads and writes nothing outside in[0..size) and out[0..size); two-argument versions likewise.", "quantifier": "every size below 2^32, every memory content, every placement of non-overlapping buffers", "why_tests_cant": "a test fixes a handful of sizes and buffers and cannot see stray writes", "anchors": ["src/signatures_generator.py:create_vector_signature", "include/exp.h:fast_expv"]}
{"id": "C38", "title": "array functions do not depend on the order in which elements are processed", "statement": "For non-overlapping buffers, any order of executing the iterations (as a vectorising compiler may choose) gives the same memory; the same holds when input and output are the identical buffer; it fails for buffers shifted by one element.", "quantifier": "every permutation of the iterations, every memory", "why_tests_cant": "the number of schedules is size!", "anchors": ["src/signatures_generator.py:create_vector_signature"]}
{"id": "C39", "title": "the Vc wrappers process each element exactly once", "statement": "The generated Vc-based array functions (full vector chunks followed by a scalar tail) compute out[i] = f(in[i]) for every i < size and touch nothing else, for every vector width.", "quantifier": "every size, every vector width >= 1, every memory content", "why_tests_cant": "width is a compile-time property of the test machine", "anchors": ["src/vc_wrapper_generator.py"]}
{"id": "C40", "title": "the numpy wrapper applies the function to every logical element of the array", "statement": "For every element count and every input/output stride numpy may pass, element k of the output array is f of element k of the input array.", "quantifier": "every count, strides and memory content", "why_tests_cant": "strided views are one of many array layouts", "anchors": ["src/vdtNumpyWrapper.c"]}
{"id": "C41", "title": "the signature generator emits every declared array function exactly once with the right scalar call", "statement": "For every function name and precision declared in the headers, the generated library text contains exactly one definition of the array function and its loop body calls the scalar function of the same name and precision.", "quantifier": "every entry of the generator's tables", "why_tests_cant": "compiling the library only shows that names resolve", "anchors": ["src/signatures_generator.py", "src/fatlib.h", "src/numpy_wrapper_generator.py"]}
{"id": "C42", "title": "hexadecimal text persistence of a floating point number is lossless", "statement": "Writing any double or float with fpToHex and reading the text back with fpFromHex gives the same bit pattern, and the reader leaves exactly the separating blank and whatever follows it.", "quantifier": "every 64-bit and 32-bit pattern, every following text", "why_tests_cant": "2^64 patterns", "anchors": ["include/diagnostic/vdtdiag_filePersistence.h:fpToHex", "include/diagnostic/vdtdiag_filePersistence.h:fpFromHex"]}
{"id": "C43", "title": "random pools survive a write/read cycle", "statement": "For every non-empty pool (1D and 2D, both precisions), constructing a pool from the file written by writeFile gives the same numbers in the same order.", "quantifier": "every length and every content", "why_tests_cant": "list of arbitrary length and content", "anchors": ["include/diagnostic/vdtdiag_random.h:randomPool1D", "include/diagnostic/vdtdiag_random.h:randomPool2D"]}
{"id": "C44", "title": "function responses survive a write/read cycle", "statement": "For every list of inputs and outputs and every function name without line breaks, constructing a response from the file written by writeFile gives the same inputs and outputs.", "quantifier": "every length and content, every name", "why_tests_cant": "list of arbitrary length and content", "anchors": ["include/diagnostic/vdtdiag_fcnResponse.h:fcnResponse1D", "include/diagnostic/vdtdiag_fcnResponse.h:fcnResponse2D"]}
{"id": "C45", "title": "comparison files give back what was written", "statement": "For every comparison object, reading the rows of the file written by writeFile gives the stored inputs, outputs and bit differences.", "quantifier": "every length and content, infinities and NaN included", "why_tests_cant": "the decimal column breaks only for non-finite inputs", "anchors": ["include/diagnostic/vdtdiag_fcnComparison.h"]}
{"id": "C46", "title": "re-writing an object that was loaded from a file preserves the data", "statement": "If a pool or response was constructed from file A, writeFile to a file B makes B hold the same numbers as A, for every B (including B = A), and no other file changes.", "quantifier": "every file system state and every pair of file names", "why_tests_cant": "depends on the file-system state; the case B = A destroys data", "anchors": ["include/diagnostic/vdtdiag_random.h:writeFile", "include/diagnostic/vdtdiag_fcnResponse.h:writeFile"]}
{"id": "C47", "title": "diffbit measures the most significant differing bit of the ordinal distance", "statement": "diffbit(a,b) is 0 exactly if a and b have the same bit pattern, is symmetric, and otherwise equals the bit length of |ord(a)-ord(b)| of the two patterns read as integers; it never has undefined behaviour.", "quantifier": "every pair of patterns", "why_tests_cant": "2^128 pairs; the diagonal is undefined behaviour that looks like 0 on x86", "anchors": ["include/diagnostic/vdtdiag_helper.h:diffbit"]}
{"id": "C48", "title": "comparison statistics are the min, max, mean and spread of the bit differences", "statement": "For every non-empty vector of bit differences calcStats reports its minimum, maximum, mean and root-mean-square spread, independent of the order of the entries; hasDifference is true exactly if some entry is positive.", "quantifier": "every length and content", "why_tests_cant": "arbitrary vectors", "anchors": ["include/diagnostic/vdtdiag_interfaces.h:calcStats", "include/diagnostic/vdtdiag_interfaces.h:fillBitDiffs"]}
{"id": "C49", "title": "command line parsing accepts exactly the registered options, each at most once", "statement": "parseCmd succeeds exactly if every argument is a registered short or long flag, optionally followed by =value, and no option occurs twice; afterwards getArgument returns the value given and isSet tells which were given; the order of the arguments does not matter.", "quantifier": "every option table and every argument list", "why_tests_cant": "argument lists are unbounded", "anchors": ["include/diagnostic/vdtdiag_simpleCmd.h:CmdOptions"]}
{"id": "C50", "title": "comma lists are split into their elements", "statement": "list2vector returns the comma separated fields: joining the returned elements with commas gives back the string (up to one trailing comma), and no element contains a comma.", "quantifier": "every string", "why_tests_cant": "strings are unbounded", "anchors": ["progs/vdtArithmComparison.cpp:list2vector"]}
{"id": "C51", "title": "performance statistics are computed over the requested repetitions", "statement": "A measurement with r repetitions and w warm-up rounds records exactly r timings, those after the warm-up, and reports their mean divided by the array length; the reported spread is never the root of a negative number.", "quantifier": "every size, repetition count, warm-up count and timing sequence", "why_tests_cant": "counters wrap only for large products", "anchors": ["include/diagnostic/vdtdiag_fcnPerformance.h"]}
{"id": "C52", "title": "the timer reports the elapsed nanoseconds", "statement": "For every start and stop reading of the clock with stop >= start, the reported elapsed time is 10^9*(difference of seconds) + difference of nanoseconds.", "quantifier": "every pair of clock readings", "why_tests_cant": "the failing readings are those where the nanosecond field wraps around, depends on the schedule", "anchors": ["include/diagnostic/vdtdiag_helper.h:timer"]}
{"id": "C53", "title": "the preload library replaces each libm function by the matching fast function", "statement": "With the preload option the generated source additionally contains exactly one replacement of each of the ten libm functions for double, for float with suffix f and for the float overload, each returning the fast function of that precision on its parameters in order; without the option nothing is added.", "quantifier": "every entry of the generator's table and every overload", "why_tests_cant": "a wrong precision only changes the last digits of results", "anchors": ["src/signatures_generator.py:create_preload_signatures"]}
{"id": "C54", "title": "the multi-target library wraps every function with the right call", "statement": "The generated library has one wrapper for each of its functions, each precision, numbers and arrays; each passes its parameters on in order and calls the fast function of its precision with the right number of arguments.", "quantifier": "every function, precision and kind of the generator", "why_tests_cant": "a wrong precision or argument order type checks", "anchors": ["src/numpy_wrapper_generator.py:create_Wrapper_signature", "include/stdwrap.h", "src/fatlib.h"]}
{"id": "C55", "title": "the Python functions take as many arguments as the library functions", "statement": "For every array function of the multi-target library the generated Python module has exactly one function of that name and it takes one parameter per input array.", "quantifier": "every function of the generator", "why_tests_cant": "Python reports a wrong number of arguments only when the function is called", "anchors": ["src/numpy_wrapper_generator.py:get_python_function"]}
{"id": "C56", "title": "the numpy module registers every function under its name", "statement": "After import, the numpy extension module offers each function of the multi-target library under its name, with the float and double array functions of that name as its loops.", "quantifier": "every function of the generator, both Python versions", "why_tests_cant": "depends on the Python version and on the bytes of a pointer", "anchors": ["src/vdtNumpyWrapper.c:PyInit_vdtnpfun", "src/numpy_wrapper_generator.py:create_numpy_header"]}
{"id": "C57", "title": "the Vc wrappers call the Vc function they stand for", "statement": "The generated Vc wrapper source has one definition for each of its functions, each precision, numbers and arrays; each calls the corresponding Vc function (inv: reciprocal, isqrt: rsqrt) in the vector type of its precision on full vectors and on the tail.", "quantifier": "every function of the generator", "why_tests_cant": "the wrappers are only compared with other implementations on random inputs", "anchors": ["src/vc_wrapper_generator.py:get_function_code"]}
{"id": "C58", "title": "sine and cosine never leave [-1, 1]", "statement": "Whenever fast_sincos or fast_sincosf is defined, both results are numbers and lie between -1 and 1.", "quantifier": "every bit pattern of the argument for which the conversion to int is defined", "why_tests_cant": "2^64 doubles; the float version fails only beyond arguments of 2^24", "anchors": ["include/sincos.h:fast_sincos", "include/sincos.h:fast_sincosf"]}
{"id": "C59", "title": "sine and cosine keep an absolute accuracy of 2^-22 up to the last defined argument", "statement": "For every double for which fast_sincos is defined (|x| < 1.686e9) both results are within 2^-22 of the real sine and cosine.", "quantifier": "every finite double below the limit", "why_tests_cant": "2^62 doubles and a real-valued reference", "anchors": ["include/sincos.h:reduce2quadrant", "include/sincos.h:fast_sincos"]}
{"id": "C60", "title": "random pools stay within their limits and are the scaled engine output", "statement": "For finite limits min <= max of either precision, any engine output and any size, a pool has exactly `size` numbers, each finite and between the limits (also when max-min overflows the type); for limits of moderate size every number is within one rounding of min+(max-min)*g/2^64.", "quantifier": "both precisions, all finite limits, all engine outputs, all sizes", "why_tests_cant": "2^64 engine outputs and 2^128 pairs of limits; an excess at the upper limit needs one particular output", "anchors": ["include/diagnostic/vdtdiag_interfaces.h:fillVector", "include/diagnostic/vdtdiag_random.h:randomPool1D", "include/diagnostic/vdtdiag_random.h:randomPool2D"]}
{"id": "C61", "title": "a response is one output per input, computed by the function", "statement": "A response built from an array function of n numbers (1 <= n < 2^32) holds n rows, row i being input i and the value of the element function there, whatever the freshly allocated output array contains; with two inputs likewise.  For an empty input the constructor from an array function is undefined, for 2^32 or more numbers it does not return.", "quantifier": "every element function, every list of inputs, every content of uninitialised memory", "why_tests_cant": "depends on uninitialised memory and on lengths of 2^32", "anchors": ["include/diagnostic/vdtdiag_fcnResponse.h:fcnResponse1D", "include/diagnostic/vdtdiag_fcnResponse.h:fcnResponse2D"]}
{"id": "C62", "title": "a benchmark run writes one response file per function", "statement": "When a run of the accuracy benchmark is defined it leaves, for every function of the tables (108 without Vc, 140 with Vc), a file named after nickname and function whose header names this function and its precision, and changes no other file; runs with different nicknames never write the same file.", "quantifier": "all nicknames, sizes, file systems, engine outputs, implementations of libm and Vc", "why_tests_cant": "an overwritten file shows only when both functions are looked at", "anchors": ["progs/vdtArithmBenchmark.cpp:main", "include/diagnostic/vdtdiag_fcnTuples.h"]}
{"id": "C63", "title": "a benchmark run is defined and its recorded outputs are accurate", "statement": "For every size except 0 a benchmark run without Vc has no undefined behaviour; each response file read back has the numbers of its pool as inputs, and every recorded output of a fast function is within the proven error bound of the real function at the recorded input.  With size 0 the run is undefined.", "quantifier": "all nicknames, sizes, engine outputs, file systems and contents of uninitialised memory", "why_tests_cant": "a test sees one seed; the random inputs could meet an argument where a function is undefined", "anchors": ["progs/vdtArithmBenchmark.cpp:main", "include/diagnostic/vdtdiag_fcnTuples.h", "include/diagnostic/vdtdiag_fcnResponse.h"]}
{"id": "C64", "title": "the basic function names have no prefix and each has a fast counterpart", "statement": "getFunctionBasicNames returns names without Fast_/VC_ prefix, without repetition, and for each returned name the table contains the function Fast_<name>.", "quantifier": "with and without Vc, all entries of the table", "why_tests_cant": "the Vc configuration is normally not compiled, and nothing in the repository calls the function", "anchors": ["include/diagnostic/vdtdiag_fcnTuples.h:getFunctionBasicNames"]}
{"id": "C65", "title": "the accuracy script hands the comparison program the right files in the right order", "statement": "For every nickname without shell-special characters the command line of checkAccuracy.py, split by the shell and parsed by the comparison program, gives the nickname, the reference files of the 44 functions and, position by position, the files of their fast versions.", "quantifier": "all nicknames without blanks and double quotes", "why_tests_cant": "lists and names pass through a script, a shell and a hand-written option parser; only unusual nicknames break the chain", "anchors": ["scripts/checkAccuracy.py", "progs/vdtArithmComparison.cpp:main", "include/diagnostic/vdtdiag_simpleCmd.h"]}
{"id": "C66", "title": "comparing two responses records both outputs, their bit differences and the statistics", "statement": "Comparing two saved responses of equal length writes one file, named after nickname and function, and changes no other; read back it holds every input, both outputs, the bit length of the distance of the two patterns, and maximum, minimum, mean and variance of these differences; for functions of one and of two variables, in both precisions.", "quantifier": "all responses of 1 to 2^32-1 rows with finite inputs, all names, all log2 functions of library quality", "why_tests_cant": "precision and arity are guessed from file header and file name, and the difference of two equal outputs is undefined behaviour", "anchors": ["progs/vdtArithmComparison.cpp:main", "include/diagnostic/vdtdiag_fcnComparison.h", "include/diagnostic/vdtdiag_interfaces.h", "include/diagnostic/vdtdiag_helper.h:diffbit"]}
{"id": "C67", "title": "the accuracy check end to end", "statement": "Running the benchmark and then the command of checkAccuracy.py with the same nickname succeeds and leaves 44 comparison files; each holds for every input of the pool the value of the standard function, a value of the fast function within its proven error bound, and their bit difference, and no other file is changed.", "quantifier": "all engine outputs, implementations of libm, sizes other than 0, file systems, nicknames without special characters and without Atan2", "why_tests_cant": "three programs and their files have to fit together for every random seed", "anchors": ["progs/vdtArithmBenchmark.cpp:main", "scripts/checkAccuracy.py", "progs/vdtArithmComparison.cpp:main"]}
{"id": "C68", "title": "the accuracy check reports few differing bits", "statement": "If the mathematical library is accurate to one unit in the last place on the inputs of the benchmark, the bit patterns of the fast functions differ from those of the library by at most 6 (exp, log, asin, atan, expf, logf), 10 (atanf, atan2), 12 (isqrt), 18 (tanh, tanhf, asinf, atan2f), 132 (isqrtf), 16402 (sinf, cosf), 32770 (sin, cos), 32834 (tanf), 46476 (acosf), 65538 (tan) and 536870946 (acos) steps. The comparison files of the accuracy check therefore report at most 3 bits (exp, log, asin, atan, expf, logf), 4 (isqrt, atanf, atan2), 5 (tanh, tanhf, asinf, atan2f), 8 (isqrtf), 15 (sinf, cosf), 16 (sin, cos, tanf, acosf), 17 (tan) and 30 (acos), in every row and as maximum.", "quantifier": "for every engine, every library good to one unit in the last place, every size, every nickname, every input of the pools", "why_tests_cant": "The benchmark uses one set of random inputs and one library; a test cannot show a bound for all inputs.", "anchors": ["progs/vdtArithmComparison.cpp:main", "include/diagnostic/vdtdiag_fcnComparison.h", "include/diagnostic/vdtdiag_helper.h:diffbit", "include/diagnostic/vdtdiag_helper.h:refMath"]}
{"id": "C69", "title": "sine and cosine keep their relative accuracy near their zeros and never have the wrong sign", "statement": "For every finite double with |x| \u2264 2^27, fast_sin and fast_cos are defined and their results are within 2^-23 (2^-32 up to 2^20, 2^-38 up to 8192, 2^-48 up to 32) of the real sine and cosine, relatively to the value, also next to the multiples of \u03c0/2; for every float with |x| \u2264 8192 the float versions are within 2^-10 (2^-11 up to 4096, 2^-15 up to 128). In particular the result is zero only if the real value is zero and has its sign. The bounds cannot be improved much: at the number nearest to 29\u03c0/2 the relative error of fast_cos is above 2^-43.", "quantifier": "all finite doubles up to 2^27, all finite floats up to 8192", "why_tests_cant": "The worst cases are the few numbers nearest to multiples of \u03c0/2; a random sample never meets them, and an absolute error hides them.", "anchors": ["include/sincos.h:details::fast_sincos_m45_45", "include/sincos.h:details::reduce2quadrant", "include/sincos.h:fast_sincos", "include/sin.h:fast_sin", "include/cos.h:fast_cos"]}
{"id": "C70", "title": "a performance run is defined, writes one file, and the script reads every time and error from it", "statement": "A run of the performance benchmark with pool limits up to 10^9 in magnitude, a positive size and any pattern has no undefined operation and changes only the file nickname__performance_benchmark.txt; tabulateVDTResults.py reads from this file, in the order of the run, the name of every function that matches the pattern together with its mean time and its error, both rounded to two decimals. With larger limits a run may be undefined.", "quantifier": "for every engine, every clock, every nickname, size, number of repetitions and pattern, all pool limits up to 10^9", "why_tests_cant": "The times depend on the clock and the file depends on the pattern; a test sees the times of one machine and checks the format by eye.", "anchors": ["progs/vdtPerfBenchmark.cpp:main", "include/diagnostic/vdtdiag_fcnPerformance.h:fcnPerformance::print", "scripts/tabulateVDTResults.py:extractTimings"]}
{"id": "C71", "title": "normalisation subtracts the identity function of the same kind", "statement": "For the timings of a full run, normaliseTimings drops the eight identity functions and reduces the time of every other function by the time of the identity function of its own kind (number or array, double or single precision, one or two arguments), adding the errors in quadrature. If the first function selected by the pattern is not an identity it raises an exception; if the identity of a later kind is missing, the identity of another kind is subtracted.", "quantifier": "for all times and errors of the 112 functions", "why_tests_cant": "A wrong offset changes times by a few nanoseconds, which no test distinguishes from noise.", "anchors": ["scripts/tabulateVDTResults.py:normaliseTimings"]}
{"id": "C72", "title": "the libm table pairs every library function with its fast version", "statement": "From the normalised timings of a full run, createLibmVdtTable prints one line per function of the mathematical library with its time and error, time and error of the function of vdt that replaces it (Fast_Inv for Inverse), and the ratio of the times, provided that no normalised time of these functions of vdt is zero; if one is zero, the script stops with an exception. Without normalisation the table is never printed: the script looks for Fast_Identity.", "quantifier": "for all times and errors, all titles without line break", "why_tests_cant": "Equal times of a function and the identity are rare, so the division by zero does not show up in a trial run.", "anchors": ["scripts/tabulateVDTResults.py:createLibmVdtTable", "scripts/tabulateVDTResults.py:timings2TimingsDict"]}
{"id": "C73", "title": "the vector table shows every function with the time and error of its array version", "statement": "From the normalised timings of full runs, createVectTable prints one line per function on single numbers with time and error in the first file, then for each file time and error of the array version and the ratio. (Violated: the lines of Fast_Inv and Fast_Apr_Inv are missing, because names that end with v are taken for array functions, and the error printed is that of the function on single numbers.)", "quantifier": "for all numbers of files, all times and errors, all titles without line break", "why_tests_cant": "The table looks complete; that two of 52 functions are missing and that the errors belong to other functions is not visible in it.", "anchors": ["scripts/tabulateVDTResults.py:createVectTable"]}
{"id": "C74", "title": "the summary table shows in each line the timings of one function", "statement": "If all files list the same functions in the same order, createSummaryTable prints one line per function: its name, time and error in the first file, then time, error and ratio for every other file; a zero time is replaced by one in the ratio. (For files of runs with different patterns this fails: rows are paired by position, so that one line shows timings of different functions.)", "quantifier": "for all lists of function names, all numbers of files, all times and errors", "why_tests_cant": "Files from equal patterns give a right table; the mistake needs files that nobody compares in a test.", "anchors": ["scripts/tabulateVDTResults.py:createSummaryTable"]}
{"id": "C75", "title": "exponential and logarithm keep their accuracy however products and sums are fused", "statement": "If any subset of the sums in fast_exp, fast_expf, fast_log and fast_logf whose operand is a product is computed with one rounding (as GCC does with -mfma), the results keep the bounds of the unfused code: relative error at most 2^-51 (double, |x| <= 708 resp. positive normal x <= 1e307) and 2^-22 (float, -87.25 <= x <= 88.35 resp. positive normal x); the logarithm of 1 is +0.", "quantifier": "every choice of fused operations and every argument in the stated ranges", "why_tests_cant": "The number of ways to fuse is exponential in the number of sums and depends on compiler version and flags; a test run sees one binary.", "anchors": ["include/exp.h:fast_exp", "include/exp.h:fast_expf", "include/log.h:fast_log", "include/log.h:fast_logf", "CMakeLists.txt:FMA"]}
{"id": "C76", "title": "sine, cosine and tangent keep their accuracy however products and sums are fused", "statement": "Under every choice of fused operations fast_sincos is within 2^-51 absolute and 2^-23 relative for |x| <= 2^27 (2^-48 relative up to 32), its results lie within 2^-50 of the unit circle, fast_sincosf is within 2^-22 absolute and 2^-10 relative for |x| <= 8192, and fast_tan and fast_tanf keep all error bounds proved for the unfused code.", "quantifier": "every choice of fused operations and every argument in the stated ranges", "why_tests_cant": "The argument reduction subtracts three products in a row; fusing one of them changes which rounding errors cancel, and the worst arguments near multiples of pi/2 are not hit by sampling.", "anchors": ["include/sincos.h:fast_sincos", "include/sincos.h:fast_sincosf", "include/tan.h:fast_tan", "include/tan.h:fast_tanf", "CMakeLists.txt:FMA"]}
{"id": "C77", "title": "inverse trigonometric functions keep accuracy and range however products and sums are fused", "statement": "Under every choice of fused operations fast_asin, fast_acos, fast_atan, fast_atan2 and their float versions keep the error bounds and the ranges of the unfused code (asin and atan never above the rounded pi/2, acos between 0 and pi, atan2 with the sign of y and within pi).", "quantifier": "every choice of fused operations and every finite argument (of magnitude at most 1 for asin and acos; not both zero for atan2)", "why_tests_cant": "Range violations by one unit in the last place occur, if at all, for a few arguments under a few choices.", "anchors": ["include/asin.h:fast_asin", "include/asin.h:fast_acos", "include/asin.h:fast_asinf", "include/asin.h:fast_acosf", "include/atan.h:fast_atan", "include/atan.h:fast_atanf", "include/atan2.h:fast_atan2", "include/atan2.h:fast_atan2f", "CMakeLists.txt:FMA"]}
{"id": "C78", "title": "hyperbolic tangent keeps its guarantees however products and sums are fused", "statement": "Under every choice of fused operations fast_tanh and fast_tanhf stay in [-1,1], are odd, saturate at exactly one beyond 20 resp. 9.1, return NaN for NaN, and are within 2^-49 resp. 2^-20 relative error (15.7*2^-53 from 2^-1000 on in double).", "quantifier": "every choice of fused operations and every argument", "why_tests_cant": "Staying at or below one depends on the rounding of the last doubling step, for every argument near saturation and every choice.", "anchors": ["include/tanh.h:fast_tanh", "include/tanh.h:fast_tanhf", "CMakeLists.txt:FMA"]}
{"id": "C79", "title": "inverse square root and reciprocal keep their accuracy however products and sums are fused", "statement": "Under every choice of fused operations, made independently in every iteration, the inverse square roots and reciprocals with four and three (double) or two and one (float) Newton steps keep the error bounds and signs of the unfused code, and the inverse square root of a non-negative finite number is finite and positive.", "quantifier": "every choice of fused operations and every argument in the range of the unfused statements", "why_tests_cant": "The Newton steps are unrolled by the compiler, so that each may be fused differently.", "anchors": ["include/sqrt.h:fast_isqrt_general", "include/sqrt.h:fast_isqrtf_general", "include/inv.h:fast_inv_general", "include/inv.h:fast_invf_general", "CMakeLists.txt:FMA"]}
{"id": "C80", "title": "the wrappers around the standard functions are correctly rounded", "statement": "fast_div, fast_sqrt, fast_fmac, inv and invf return the number of the format nearest to the exact quotient, root, x*y+z or reciprocal, the one with the even last bit in a tie, and the infinity of the right sign from the overflow threshold on; fast_fma and isqrt round twice, once per operation.", "quantifier": "all finite arguments, both precisions, subnormal results and the overflow threshold included", "why_tests_cant": "ties and results next to the overflow threshold do not occur in random tests", "anchors": ["include/stdwrap.h:fast_sqrt", "include/stdwrap.h:fast_div", "include/stdwrap.h:fast_fma", "include/stdwrap.h:fast_fmac", "include/inv.h:inv", "include/inv.h:invf", "include/sqrt.h:isqrt", "include/sqrt.h:isqrtf"]}
{"id": "C81", "title": "the generated array functions come in alphabetical order", "statement": "Sorting the table of names keeps every name and orders them by code points, whatever the table; the library source defines the array functions of double, then those of float, each in strictly alphabetical order of the scalar names.", "quantifier": "every list of names; both settings of the preload option", "why_tests_cant": "a test of one generated file says nothing about other tables", "anchors": ["src/signatures_generator.py:create_vector_signatures", "src/numpy_wrapper_generator.py:create_Wrapper_signatures", "src/vc_wrapper_generator.py:create_vcWrapper_signatures"]}
{"id": "C82", "title": "the histograms show the comparison of every function", "statement": "For every pair of responses of one function, once the comparison program has compared them, scripts/diffhisto.py makes from the comparison file a pair of histograms that has exactly one entry per sample: the number of differing bits, which lies within the axis of the type, and the input as its decimal text shows it. Bin k+1 counts the samples with k differing bits.", "quantifier": "all responses (any number of samples below 2^32, all inputs and outputs), both precisions, all nicknames and function names without line breaks, functions of one and of two variables", "why_tests_cant": "The columns are found by a greedy regular expression; whether it picks the right ones depends on the form of all numbers that can be printed, and the axis must hold every possible distance of two bit patterns.", "anchors": ["scripts/diffhisto.py:fill_histos", "scripts/diffhisto.py:getTypeLength", "scripts/diffhisto.py:compare", "include/diagnostic/vdtdiag_fcnComparison.h:writeFile", "progs/vdtArithmComparison.cpp:main"]}
{"id": "C83", "title": "the input axis of every histogram covers all inputs of the benchmark", "statement": "For every function of one variable of the accuracy benchmark, every input of its pool, as read back from the decimal text in the comparison file, lies within the limits getYaxisRange chooses from the name of the function.", "quantifier": "all engines (all random numbers), all pool sizes, all functions of one variable in both precisions, scalar, array and Vc versions", "why_tests_cant": "The limits are chosen by substrings of names (Exp and Expf overlap), the pools are random and the texts are rounded; a run shows only one draw.", "anchors": ["scripts/diffhisto.py:getYaxisRange", "progs/vdtArithmBenchmark.cpp:main", "include/diagnostic/vdtdiag_fcnTuples.h:getFunctionTuples", "include/diagnostic/vdtdiag_random.h:fillVector"]}
{"id": "C84", "title": "the python module calls the library function on every element", "statement": "A call of a function of the generated Python module with arrays of any shape and element type returns arrays of the shape of the first argument and of the precision of the name, whose elements are the C++ function at the converted elements, whatever functions were called before.", "quantifier": "every function of the module, every array contents, shape and element type, every history of earlier calls, every content of fresh memory", "why_tests_cant": "tests call single functions with small arrays of one type; the cache of loaded functions, the choice of the precision by the last letter of the name and the reads behind a shorter second array only matter for particular histories and shapes", "anchors": ["scripts/vdtBase.py:loadit", "scripts/vdtBase.py:vdt_invoke", "scripts/vdtBase.py:vdt_invoke2to1", "scripts/vdtBase.py:vdt_invoke1to2", "scripts/invokeVDT.py:load", "scripts/invokeVDT.py:invoke2to1", "src/numpy_wrapper_generator.py:get_python_function"]}
{"id": "C85", "title": "functions that are monotone in the mathematical sense are monotone as programs", "statement": "if x <= y then the result for x is at most the result for y, for the exponential, the logarithm, the arcsine, the arctangent and the hyperbolic tangent (both precisions), and at least the result for y for the arccosine and, on positive numbers, for the inverse square root and the reciprocal", "quantifier": "every pair of arguments in the domain, neighbours in particular", "why_tests_cant": "an inversion needs two neighbouring arguments whose rounding errors differ by more than the slope allows: there are 2^63 pairs of neighbours in double precision and at a typical pair the results are equal or in order", "anchors": ["include/exp.h:fast_exp", "include/exp.h:fast_expf", "include/log.h:fast_log", "include/log.h:fast_logf", "include/asin.h:fast_asin", "include/asin.h:fast_asinf", "include/atan.h:fast_atan", "include/atan.h:fast_atanf", "include/tanh.h:fast_tanh", "include/sqrt.h:fast_isqrt", "include/inv.h:fast_inv"]}
{"id": "C86", "title": "the numpy functions of one, two and three arguments compute the library function element by element", "statement": "every universal function registered by the numpy module pairs the inner loop, the library functions and the operand types of the same precision and number of arguments, and applied to operands of any base address and distance between elements stores the library function of the input elements into the output elements and changes nothing else", "quantifier": "every registered function, every combination of input types, all element counts, addresses, distances and memory contents", "why_tests_cant": "the loop, the table of library functions and the table of types are untyped for the compiler (void pointers and characters), a wrong pairing compiles; and a test with arrays created in the usual way never passes a distance other than the element size, so a repeated scalar or a column of a matrix is not seen", "anchors": ["src/expfWrapper.c:PyInit_npufunc", "src/vdtNumpyWrapper.c:vdt_vf21", "src/vdtNumpyWrapper.c:vdt_vf12", "src/vdtNumpyWrapper.c:vdt_vf31", "src/vdtNumpyWrapper.c:vdt_vd21", "src/vdtNumpyWrapper.c:vdt_vd12", "src/vdtNumpyWrapper.c:vdt_vd31", "src/vdtNumpyWrapper.c:initvdtnpfun", "src/numpy_wrapper_generator.py:create_numpy_header"]}
{"id": "C87", "title": "fast_atan2 depends on the direction of the vector only", "statement": "Two finite vectors (x, y) and (c\u00b7x, c\u00b7y) with c > 0 get the same result from fast_atan2(y, x), bit for bit, whatever their lengths: subnormal components, components near the overflow threshold and zero vectors included. For 0 < |y| <= x the result is that of fast_atan at the rounded quotient y / x. The result for a mirror image of a vector is computed from the result r for the vector by one rounded operation: fast_atan2(y, -x) = PI - r for x > 0 and y >= 0, fast_atan2(x, y) = PIO2 - r for 0 < y < x, fast_atan2(-y, x) = -r for y != 0. All statements hold for fast_atan2f too and whatever products and sums the compiler contracts.", "quantifier": "for all finite x, y, x', y' of either precision for which a positive rational c exists, and for every choice of contracted operations", "why_tests_cant": "The statement relates pairs of calls with arbitrary arguments; a test samples a few vectors and a few factors and cannot reach all ratios, nor all compiler choices.", "anchors": ["include/atan2.h:fast_atan2", "include/atan2.h:fast_atan2f", "include/atan.h:fast_atan", "include/atan.h:fast_atanf"]}
{"id": "C88", "title": "the errors of the reciprocal square root and of the reciprocal repeat every two binades", "statement": "For a number x of at least twice the smallest normal number, fast_isqrt(4^k\u00b7x) is exactly fast_isqrt(x)/2^k, so that the relative error over the whole range is the one over two neighbouring binades; the same holds for fast_approx_isqrt and both float versions. For x of either sign whose size and whose reciprocal's size stay at least twice the smallest normal number, fast_inv(4^k\u00b7x) is exactly fast_inv(x)/4^k; the same holds for fast_approx_inv and both float versions. All of it holds whatever operations the compiler contracts. Without contraction fast_isqrt is exact at every power of four and fast_inv at every power of four and its negative.", "quantifier": "for all finite x and x' = 4^k\u00b7x of either precision in the stated ranges, all k and every choice of contracted operations", "why_tests_cant": "There are about 10^18 arguments and hundreds of factors; a test of some pairs says nothing about the others, and it is this statement that would allow a test of two binades to stand for all.", "anchors": ["include/sqrt.h:fast_isqrt_general", "include/sqrt.h:fast_isqrtf_general", "include/inv.h:fast_inv_general", "include/inv.h:fast_invf_general"]}
{"id": "C89", "title": "two builds of the library agree up to a few units in the last place", "statement": "Let two builds differ in the products and sums that the compiler fused. Then for every argument in the range of the accuracy statement a function is defined in both or in none, and the bit patterns of the two results are at most 8 steps apart for fast_exp, fast_log, fast_atan and their float versions (16 for fast_atanf), 7 for fast_asin, 31 for fast_tanh, 16 for fast_isqrt and 32 for fast_inv (float: 18, 32, 256, 512), 64 for fast_sin and fast_cos and 256 for fast_tan up to 32. Where zeros of the function make a count of steps meaningless (fast_sincos up to 2^27, fast_acos, fast_atan2) the results differ by at most 2^-50 (fast_sincos) or 2^-49, and the signs of fast_atan2 are equal.", "quantifier": "for all pairs of contraction choices and all arguments of either precision in the stated ranges", "why_tests_cant": "A test compares the builds at hand on sampled arguments; the compiler may fuse each of some dozens of operations independently, and every pair of choices has its own differences.", "anchors": ["include/exp.h:fast_exp", "include/log.h:fast_log", "include/sincos.h:fast_sincos", "include/tan.h:fast_tan", "include/asin.h:fast_asin", "include/asin.h:fast_acos", "include/atan.h:fast_atan", "include/atan2.h:fast_atan2", "include/tanh.h:fast_tanh", "include/sqrt.h:fast_isqrt_general", "include/inv.h:fast_inv_general"]}
{"id": "C90", "title": "the unit test programs report the bits of both results", "statement": "getbsasstr writes, separated by blanks, the sign bit, the exponent field and the mantissa field of its argument, so the text determines the number. Reports of printFuncDiff (scalar and array forms) therefore determine every result of both functions, and the unit test programs fpDifferentBit, sqrt_test and inv_test write their reports.", "quantifier": "all numbers of both precisions, all pairs of functions, all lists of arguments, every acceptable log2, every way of writing decimal numbers without a line break", "why_tests_cant": "the programs are run by hand and their output is looked at; the undefined conversion behind equal results happens to give a number on most machines", "anchors": ["include/diagnostic/vdtdiag_helper.h:getbsasstr", "include/diagnostic/vdtdiag_helper.h:printFuncDiff", "include/diagnostic/vdtdiag_helper.h:printDifferentBit", "progs/units/fpDifferentBit.cpp:main", "progs/units/sqrt_test.cpp:main", "progs/units/inv_test.cpp:main"]}
{"id": "C91", "title": "the unit tests of the file formats read back what they wrote", "statement": "test_randomPool and test_fcnResponse leave, for every pool and every response, two files (the one written first and the one rewritten by the object read from it), and both give back all numbers; test_fcnComparison reads back the rows and statistics of every comparison it wrote.", "quantifier": "all random numbers, all functions, all comparisons with finite inputs, every previous content of the file system", "why_tests_cant": "the tests only print what they read and compare nothing; for two inputs the printed statistics are right although no row was read", "anchors": ["progs/units/test_randomPool.cpp:main", "progs/units/test_fcnResponse.cpp:main", "progs/units/test_fcnComparison.cpp:main", "include/diagnostic/vdtdiag_fcnComparison.h:fcnComparison1D"]}
{"id": "C92", "title": "the multiply-add functions of the multi-target library keep the precision of their arguments", "statement": "On every target myfmaF and myfmaD return x*y+z up to two roundings in the precision of their arguments, correctly rounded if the product is exact; targets without the instruction agree bit for bit; vdt_arch names the target that runs.", "quantifier": "all targets, all choices of the compiler, all finite arguments without overflow", "why_tests_cant": "a test runs on one machine and so on one target; single precision results look right when printed with six digits", "anchors": ["src/fatlib.h:theFMA", "src/fatlib.h:myfmaF", "src/fatlib.h:myfmaD", "src/fatlib.h:vdt_arch"]}
{"id": "C93", "title": "a function followed by its inverse gives the argument back", "statement": "exp(log x), sin(asin x), cos(acos x), asin(sin x), atan2(sin x, cos x), tan(atan x), atan(tan x), inv(inv x), in single precision also log(exp x), and inv(isqrt x) against the square root: each composition of two vdt functions returns its argument up to a stated error, which contains the unavoidable factor of the inner function.", "quantifier": "all finite arguments in the stated ranges, every contraction policy of the two functions", "why_tests_cant": "the error of the inner function is multiplied by the derivative of the outer one, so the worst arguments are not those of either function; a sample of compositions misses them", "anchors": ["include/exp.h:fast_exp", "include/log.h:fast_log", "include/asin.h:fast_asin", "include/asin.h:fast_acos", "include/sincos.h:fast_sincos", "include/atan.h:fast_atan", "include/atan2.h:fast_atan2", "include/tan.h:fast_tan", "include/inv.h:fast_inv", "include/sqrt.h:fast_isqrt"]}
{"id": "C94", "title": "the float functions agree with the double functions", "statement": "For every float argument the result of the float function differs from the result of the double function at the same number by no more than the error of the float function and 2^-36 relatively (much less where the double function is good).", "quantifier": "all float arguments in the range of the float function, every pair of contraction policies", "why_tests_cant": "comparing the two functions on a sample says nothing about the other arguments; they use different coefficients and reductions", "anchors": ["include/exp.h:fast_expf", "include/log.h:fast_logf", "include/sincos.h:fast_sincosf", "include/tan.h:fast_tanf", "include/tanh.h:fast_tanhf", "include/asin.h:fast_asinf", "include/atan.h:fast_atanf", "include/atan2.h:fast_atan2f", "include/sqrt.h:fast_isqrtf", "include/inv.h:fast_invf"]}
{"id": "C95", "title": "the float sine and cosine lose accuracy slowly up to 2^17 and then at once", "statement": "fast_sincosf is within 7*2^-24 + 1.263*2^-36*|x| of the real sine and cosine up to 2^17 and within 1.01*2^-23*|x| up to 2^20; 0.82 of the first bound and a half of the second are reached.", "quantifier": "all floats up to 2^20, every contraction policy", "why_tests_cant": "the documented range ends at 8192; a sample beyond it shows neither the rate nor the place where the product with the first part of pi/4 stops being exact", "anchors": ["include/sincos.h:reduce2quadrant", "include/sincos.h:fast_sincosf", "include/sincos.h:fast_sincosf_m45_45"]}
{"id": "C96", "title": "the functional equations between the functions hold up to rounding", "statement": "exp x * exp y = exp(x+y), log x + log y = log(x*y), the addition theorems of sine and cosine, tan*cos = sin, tanh(e^2x+1) = e^2x-1, asin+acos = pi/2, atan2(y,x)+atan2(x,y) = pi/2, atan2(y,x) = atan(y/x), isqrt(x)^2*x = 1 and inv(x)*x = 1 hold for the computed values up to a stated error of a few units in the last place.", "quantifier": "all arguments in the accurate range whose sum, product or quotient is exact, both precisions, each call with its own contraction policy", "why_tests_cant": "the equations join two or three arguments, and a wrong branch of one function shows only at the pairs that reach it", "anchors": ["include/exp.h:fast_exp", "include/log.h:fast_log", "include/sincos.h:fast_sincos", "include/tan.h:fast_tan", "include/tanh.h:fast_tanh", "include/asin.h:fast_asin", "include/asin.h:fast_acos", "include/atan2.h:fast_atan2", "include/atan.h:fast_atan", "include/sqrt.h:fast_isqrt_general", "include/inv.h:fast_inv"]}
{"id": "C97", "title": "the double sine, cosine and tangent stay accurate up to 530000000 and lose half their digits beyond", "statement": "fast_sincos is within 2^-51 of the real sine and cosine up to 530000000, within 1.0001*2^-24 up to 2^30 and within 1.0001*2^-23 on every argument for which the call is defined, and the squares of the two results add up to 1 within 2^-50 everywhere; fast_tan follows away from its zeros and poles. The last bound is attained, at an argument whose sine comes out without a correct digit.", "quantifier": "all doubles for which the calls are defined, every contraction policy", "why_tests_cant": "no documentation says where the reduction stops being exact, and beyond 5.4e8 only arguments in some of the quadrants are affected; a sample of large arguments compared with an absolute tolerance of single precision passes", "anchors": ["include/sincos.h:reduce2quadrant", "include/sincos.h:fast_sincos", "include/tan.h:fast_tan"]}
{"id": "C98", "title": "distinguished arguments give the nearest number", "statement": "the logarithm of a power of two is the number nearest to the exact logarithm, with ties to even, for every exponent the function treats and whatever multiplications are fused; on the two diagonals the two argument arctangent is the number nearest to the odd multiple of pi over four, for vectors of any length; arctangent, arcsine and arccosine give the nearest number where their exact value is a simple fraction of pi, except the double arccosine of one half", "quantifier": "every power of two from the smallest normal one to the limit of the logarithm, every pair of finite numbers of equal absolute value, every choice of fused operations, both precisions; the listed arguments of the inverse functions", "why_tests_cant": "an accuracy test allows some units in the last place everywhere, so it does not notice when these arguments, whose results users know by heart, lose their exactness; there are thousands of powers of two and far more diagonal vectors", "anchors": ["include/log.h:fast_log", "include/log.h:fast_logf", "include/atan2.h:fast_atan2", "include/atan2.h:fast_atan2f", "include/asin.h:fast_acos", "include/atan.h:fast_atan"]}
{"id": "C99", "title": "the compiler gets the flags that the build options ask for", "statement": "the words on the command line of the library and of the diagnostic programs are a fixed list, the flag of one instruction set (NEON before AVX2 before AVX before SSE), -mfma just if FMA is on and NEON off, -g for DEBUG, and the flags of USERFLAGS; without USERFLAGS no flag that changes the meaning of floating-point arithmetic is given and fused operations are allowed just with FMA; the configuration stops just for compilers older than the stated versions; Vc is used just if its two files exist", "quantifier": "all settings of the options, all compilers and versions, all file systems", "why_tests_cant": "eleven options, four compilers and any version number make thousands of configurations, while a build tests the one of the machine at hand; the accuracy of every function depends on the absence of a flag such as -ffast-math or -mfma", "anchors": ["CMakeLists.txt:VDT build options", "lib/CMakeLists.txt:CMAKE_CXX_FLAGS", "src/CMakeLists.txt:USE_VC"]}
{"id": "C100", "title": "the settings for a compiler are in effect for that compiler", "statement": "with GCC the limit for the growth by inlining is raised, with the Intel compiler AVX2 is asked for by -xavx2, with Clang the inline attribute is defined away", "quantifier": "all settings of the options, all accepted versions of the three compilers", "why_tests_cant": "a build without the settings succeeds and computes the same numbers, only more slowly; no test looks at the command line", "anchors": ["CMakeLists.txt:COMP_IS_GCC", "CMakeLists.txt:CMAKE_COMPILER_IS_ICC"]}
{"id": "C101", "title": "the configuration generates the library source it compiles", "statement": "the command line that the configuration executes is the signatures generator with arguments that make it write the source file of the library, with the replacements of the mathematical functions just if PRELOAD is on", "quantifier": "all source directories and interpreters, both values of PRELOAD, all other options", "why_tests_cant": "the command line goes through the expansion of variables, the splitting by the shell and the option parser; the build is tried in one directory, and a stale generated file hides a failure", "anchors": ["src/CMakeLists.txt:EXEC_PROGRAM", "src/signatures_generator.py:create_impl", "lib/CMakeLists.txt:ADD_LIBRARY"]}
{"id": "C102", "title": "headers can be found wherever they are included", "statement": "everything that an installed header includes, directly or not, is installed too or belongs to the system, vdtMath.h reaches every installed header, and everything that a diagnostic program includes is in the directories searched for it", "quantifier": "all installed headers, all programs, with and without Vc, chains of inclusions of any length", "why_tests_cant": "programs in the source tree find headers that are not installed, and the variant with Vc is not built on most machines", "anchors": ["CMakeLists.txt:INSTALL", "include/vdtMath.h:includes", "include/diagnostic/vdtdiag_fcnTuples.h:includes", "src/vc_wrapper_generator.py:create_header"]}
{"id": "C103", "title": "the documented functions are those of the library", "statement": "for each line of the table of functions in ReadMe.md the library defines both array functions and each applies the scalar function of its line and precision; every fast function of the library is in the table", "quantifier": "all lines of the table, all functions of the generated library source, with and without the preload option", "why_tests_cant": "the documentation is not compiled; a name in it that no longer exists, or a function left out, is noticed only by users", "anchors": ["ReadMe.md:table of functions", "src/signatures_generator.py:FUNCTIONS_LIST"]}
{"id": "C104", "title": "the largest error of the reciprocal square root and of the reciprocal is known to a few percent", "statement": "over the positive normal numbers the largest relative error of fast_approx_isqrtf lies between 0.00175233 and 0.0017528, that of fast_isqrtf between 4.73e-6 and 4.91e-6, that of fast_approx_isqrt between 3.17e-11 and 3.188e-11 and that of fast_isqrt between 2.7e-16 and 5.552e-16; over the normal numbers with a normal reciprocal the largest relative error of fast_approx_invf lies between 0.0035015 and 0.0035232, that of fast_invf between 9.5e-6 and 9.931e-6, that of fast_approx_inv between 6.34e-11 and 6.409e-11 and that of fast_inv between 6.1e-16 and 1.231e-15", "quantifier": "every positive normal double and float, every normal double and float with a normal reciprocal; one witness for each lower bound", "why_tests_cant": "the maximum over all doubles cannot be found by sampling, and the arguments with nearly the largest error are rare", "anchors": ["include/sqrt.h:fast_isqrt_general", "include/sqrt.h:fast_isqrtf_general", "include/inv.h:fast_inv_general", "include/inv.h:fast_invf_general"]}
{"id": "C105", "title": "the arc cosine has a small relative error", "statement": "the relative error of fast_acos is at most 2^-50 for every double in [-1, 1), and that of fast_acosf at most 2^-20 for every float in [-1, 1)", "quantifier": "every double and float in [-1, 1)", "why_tests_cant": "random arguments are rarely close enough to one for the loss of digits to show, and a comparison with an absolute tolerance does not see it", "anchors": ["include/asin.h:fast_acos", "include/asin.h:fast_acosf"]}
{"id": "C106", "title": "the error bounds are within a factor of four of the largest error", "statement": "For exp, log, sine, cosine, tangent, hyperbolic tangent, arc tangent and arc sine in both precisions, the error bound proved over the whole range of arguments is met everywhere, and at one argument of that range the error is more than a quarter of the bound.", "quantifier": "All finite (or positive normal) arguments of each range, and one explicit argument per function.", "why_tests_cant": "The largest error over 2^32 or 2^64 arguments cannot be found by sampling, and no test can tell whether a stated bound is much too generous.", "anchors": ["include/exp.h:fast_exp", "include/log.h:fast_log", "include/sin.h:fast_sin", "include/cos.h:fast_cos", "include/tan.h:fast_tan", "include/tanh.h:fast_tanh", "include/atan.h:fast_atan", "include/asin.h:fast_asin"]}
{"id": "C107", "title": "the timing scripts compare the same functions in the same precision", "statement": "Each Python script of progs (vdtCtypesTest.py, vdtNumpytest.py, vdtNumpyTime.py, testExp.py, the notebooks vdtTest and vdtTiming) runs to its end with the generated modules: every name, attribute, key and library function it uses exists when it is used, and every call of the library passes arrays of the right type and number. Below a heading \"timing h\" every timed function computes h, with numpy if its name begins with n and with the library if it begins with v; two functions whose names differ only in this letter work in the same precision; and the names of the exponentials and of the sine/cosine pairs have an f exactly if that precision is single.", "quantifier": "for every statement of the six scripts, every timed function and both precisions", "why_tests_cant": "The scripts print times only; a function that computes something else or in another precision prints a plausible time, and the values it computes are never looked at. vdtCtypesTest.py times sines as the float exponential of numpy.", "anchors": ["progs/vdtCtypesTest.py:nexf", "progs/vdtCtypesTest.py:vexff", "progs/vdtNumpytest.py:vexf", "progs/vdtNumpyTime.py:vexfm", "progs/testExp.py:vdt_exp", "progs/vdtTiming.ipynb:vsqrt", "progs/vdtTest.ipynb:vdt_arch", "src/vdt.py:vdt_arch", "scripts/vdtBase.py:loadit"]}
{"id": "C108", "title": "the options each library is compiled with keep the accuracy", "statement": "With the compiler options that a configuration without USERFLAGS uses, and with those of the script that builds the library of the numpy module, every result that the options allow the compiler to produce has the accuracy of the functions: products and sums may be fused, and if the options say so (-Ofast, -ffast-math), an expression may be replaced by one that is equal to it for real numbers. Sine and cosine stay within 2^-51 (float: 2^-22), the exponential within a relative error of 2^-51 (float: 2^-22).", "quantifier": "for every configuration, every choice of fused operations, every replacement of the argument reduction, and all arguments of the domains", "why_tests_cant": "Which of the permitted forms a compiler chooses depends on its version and target; a test sees one of them. The argument reductions subtract two or three parts of a constant one after the other, and lose their purpose when the parts are added up first, which the options of the bootstrap script permit.", "anchors": ["progs/numpyBootstrap.csh:c++", "CMakeLists.txt:CMAKE_CXX_FLAGS", "include/sincos.h:reduce2quadrant", "include/exp.h:fast_exp", "include/exp.h:fast_expf", "src/numpy_wrapper_generator.py:create_impl"]}
{"id": "C109", "title": "no floating-point exception is raised for ordinary arguments", "statement": "None of the functions raises the invalid, division-by-zero or overflow exception for an argument at which the function of the same name in the C library has a finite value and raises none: exponentials and logarithms in their ranges, sine, cosine and tangent up to 2^27 (float: 8192), hyperbolic tangents for all numbers and infinities, arc sines and arc cosines on [-1,1], arc tangents for all numbers and infinities and for all pairs of them, reciprocal square roots and reciprocals. The exceptions of intermediate results that are overwritten later count.", "quantifier": "for every argument in the ranges and every operation of the functions", "why_tests_cant": "An exception leaves no trace in the result; it shows only in a program that traps it, and no test enables the traps. ReleaseNotes.txt (V0.3.4) reports the removal of such an exception from both atan2 functions, but the float function still divides zero by zero.", "anchors": ["include/atan2.h:fast_atan2f", "include/atan2.h:fast_atan2", "include/atan.h:fast_atan", "include/atan.h:fast_atanf", "include/tan.h:fast_tan", "include/tan.h:fast_tanf", "include/asin.h:fast_asin", "include/asin.h:fast_asinf", "include/exp.h:fast_exp", "include/log.h:fast_log", "include/tanh.h:fast_tanh", "include/sincos.h:fast_sincos", "include/sqrt.h:fast_isqrt_general", "include/inv.h:fast_inv_general", "ReleaseNotes.txt:V0.3.4"]}
{"id": "C110", "title": "results that are no numbers are announced by an exception", "statement": "If a function returns NaN although no argument is NaN, the invalid exception has been raised; if it returns an infinity although the arguments are finite, overflow or division by zero has been raised. In particular the arc sines and arc cosines of every number outside of [-1,1] raise the invalid exception.", "quantifier": "for every argument of every function", "why_tests_cant": "The values alone do not show it, and no test looks at the exception flags. The functions write some of these values by a test on the argument, which raises nothing.", "anchors": ["include/asin.h:fast_asin", "include/asin.h:fast_asinf", "include/asin.h:fast_acos", "include/asin.h:fast_acosf", "include/log.h:fast_log", "include/log.h:fast_logf", "include/exp.h:fast_exp", "include/exp.h:fast_expf", "include/sqrt.h:fast_isqrt_general", "include/inv.h:fast_inv_general", "include/tan.h:fast_tan", "include/atan2.h:fast_atan2"]}
{"id": "C111", "title": "different seeds give different random numbers", "statement": "Two random pools whose seeds differ draw different numbers: for every pair of different seeds (all 2^32 of each class, all 2^64 of the engine) the engines give a different output within the first 312 calls, and on the unit interval the numbers before rounding to the type of the pool differ as real numbers.", "quantifier": "all pairs of different seeds, both classes of pools, both precisions", "why_tests_cant": "there are 2^63 pairs of 32-bit seeds, and two streams that agree on what a test looks at may still be equal for other pairs; a test can compare a handful", "anchors": ["include/diagnostic/vdtdiag_interfaces.h:IrandomPool", "include/diagnostic/vdtdiag_random.h:randomPool1D", "include/diagnostic/vdtdiag_random.h:randomPool_old"]}
{"id": "C112", "title": "the classes kept for compatibility agree with their replacements", "statement": "randomPool_old, fcnResponse_old and fcnComparison_old produce the same numbers, rows and statistics as randomPool1D, fcnResponse1D and fcnComparison1D from the same arguments, and each class reads back the files that the other one writes.", "quantifier": "all limits, sizes and seeds, all inputs and functions of one variable (scalar or array), all files, both precisions", "why_tests_cant": "the equality is between two programs on every argument; sampled arguments miss the negative seeds, the sizes from 2^32 on and the outputs of unequal length where they part", "anchors": ["include/diagnostic/vdtdiag_random.h:randomPool_old", "include/diagnostic/vdtdiag_fcnResponse.h:fcnResponse_old", "include/diagnostic/vdtdiag_fcnComparison.h:fcnComparison_old"]}
{"id": "C113", "title": "the float tangent follows the reduction up to 2^17 and is lost beyond", "statement": "From 8192 up to 2^17, wherever the tangent is between 2^-12 and 2^12 in magnitude, fast_tanf is defined and within (9*2^-24 + 1.3*2^-36*|x|)*(1 + tan^2 x) of the real tangent; 0.83 of the first factor is reached, and beyond 2^17 there is an argument with tangent -128 and a result above 600000.", "quantifier": "all floats between 8192 and 2^17 away from zeros and poles, every contraction policy", "why_tests_cant": "the documented range ends at 8192, where the reduced argument still lies in the interval of the polynomial; beyond it the error depends on the quadrant, the distance from the pole and a product that is rounded to a coarser grid at each power of two", "anchors": ["include/tan.h:reduce2quadranttan", "include/tan.h:fast_tanf"]}
{"id": "C114", "title": "flushing subnormal numbers to zero changes no result", "statement": "On a processor that replaces subnormal operands and results by zero (the mode that linking with -Ofast, as progs/numpyBootstrap.csh does, switches on for the whole process) every function returns the same bits as on one that does not, wherever its argument and its result are normal numbers or zero. Proved for exp on its whole range, log on all normal numbers, sine, cosine and tangent up to 2^27 (8192 in single precision), tanh from 2^-1018 (2^-122), asin, acos and atan at all normal arguments, atan2 unless the quotient is tiny and the result near 0, expf where its value is normal, isqrt and inv where half of the argument (and the reciprocal) is normal. Violated by isqrt and inv: for normal arguments between 2^-1022 and 1.5*2^-1022 half of the argument is flushed, every Newton step multiplies by 1.5, and the result is more than four times too large. Violated by tanh, which is zero at normal arguments near the smallest one. Also, log of a negative subnormal number is a finite number instead of NaN.", "quantifier": "every mode that flushes only what it may (operands and results, before or after rounding), every argument, every number of Newton steps", "why_tests_cant": "The tests never set the flush-to-zero mode and compare functions at random arguments that are not subnormal; the mode is switched on by the linker, outside the sources.", "anchors": ["include/exp.h:fast_exp", "include/exp.h:fast_expf", "include/log.h:fast_log", "include/log.h:fast_logf", "include/sincos.h:fast_sincos", "include/sincos.h:fast_sincosf", "include/sqrt.h:fast_isqrt_general", "include/sqrt.h:fast_isqrtf_general", "include/inv.h:fast_inv_general", "include/inv.h:fast_invf_general", "include/tan.h:fast_tan", "include/tan.h:fast_tanf", "include/tanh.h:fast_tanh", "include/tanh.h:fast_tanhf", "include/asin.h:fast_asin", "include/asin.h:fast_acos", "include/asin.h:fast_asinf", "include/asin.h:fast_acosf", "include/atan.h:fast_atan", "include/atan.h:fast_atanf", "include/atan2.h:fast_atan2", "include/atan2.h:fast_atan2f", "progs/numpyBootstrap.csh"]}
{"id": "C115", "title": "the functions keep their accuracy in every rounding direction", "statement": "With the processor rounding upward, downward, toward zero or to nearest (fesetround), or changing the direction between any two operations, exp is within 7 units of 2^-53 (expf: 6 of 2^-24) of the real exponential relative to its value for arguments up to 708 (86.5), and atan within 6.4 units of 2^-53 (atanf: 10 of 2^-24) of the real arc tangent for all numbers from 2^-1000 (2^-110) on. The logarithm is within 10 units of 2^-53 (logf: 10 of 2^-24) of the real one for all positive normal numbers other than 1 (up to 10^307 in double precision). Sine and cosine are within 5.7 units of 2^-53 for arguments up to 2^27 (float: 4.1 of 2^-24 up to 8192). The arc sine is within 6.4 units of 2^-53 of the real one relative to its value and the arc cosine within 9.8 units of 2^-53 of the real one on the whole of [-1,1] (float: 16 and 13.2 of 2^-24). The hyperbolic tangent is within 31 units of 2^-53 of the real one relative to its value for all numbers from 2^-1000 on (float: 26.3 of 2^-24 from 2^-110 on). The tangent is within 39 units of 2^-53 relative to its value (13.3 where its magnitude is between 2^-20 and 2^20) plus 2^-77*(1+tan^2) for the argument reduction, for arguments from 2^-100 up to 2^27 (float: 11.8 of 2^-24 plus 2^-32*(1+tan^2) up to 8192). The angle of two arguments (atan2) is within 13.8 units of 2^-53 of the real one for all finite pairs other than (0,0) up to 2^1023, also relative to its value (float: 15.8 of 2^-24 for all finite pairs). The reciprocal square root of a positive normal number is within 11 units of 2^-53 relative to its value (2^-34 with three Newton steps; float: 2^-17, with one step 2^-9), and the reciprocal of a normal number, if normal itself, within 25 units of 2^-53 (2^-33; float: 2^-16 and 2^-8).", "quantifier": "for every rounding direction of every single operation and all arguments of the ranges", "why_tests_cant": "The tests run with the default direction only; a caller that computes with intervals or debugs with another direction changes every operation of the inline functions. The exponential rounds its argument by floor with 32-bit integers and shifts the result into the exponent, so another direction can change the integer and with it the whole reduction.", "anchors": ["include/exp.h:fast_exp", "include/exp.h:fast_expf", "include/atan.h:fast_atan", "include/atan.h:fast_atanf", "include/log.h:fast_log", "include/log.h:fast_logf", "include/sincos.h:reduce2quadrant", "include/sincos.h:fast_sincos", "include/sincos.h:fast_sincosf", "include/asin.h:fast_asin", "include/asin.h:fast_acos", "include/asin.h:fast_asinf", "include/asin.h:fast_acosf", "include/tanh.h:fast_tanh", "include/tanh.h:fast_tanhf", "include/tan.h:reduce2quadranttan", "include/tan.h:fast_tan", "include/tan.h:fast_tanf", "include/atan2.h:fast_atan2", "include/atan2.h:fast_atan2f", "include/sqrt.h:fast_isqrt_general", "include/sqrt.h:fast_isqrtf_general", "include/inv.h:fast_inv_general", "include/inv.h:fast_invf_general", "include/vdtcore_common.h:fpfloor"]}
{"id": "C116", "title": "results stay in the range of the function in every rounding direction", "statement": "Whatever direction the processor rounds in, exponentials are positive, sine, cosine and hyperbolic tangent stay in [-1,1], arc cosines are not negative, and arc sines and arc tangents have the sign of the argument and stay within half of pi.", "quantifier": "for every rounding direction and all arguments of the domains", "why_tests_cant": "A value outside of the range breaks callers that take a square root or an arc function of it, at single arguments and in one direction only; the tests look at differences in the last bits with the default direction.", "anchors": ["include/sincos.h:fast_cos", "include/sincos.h:fast_sincos", "include/asin.h:fast_acos", "include/asin.h:fast_asin", "include/atan.h:fast_atan", "include/exp.h:fast_exp", "include/tanh.h:fast_tanh"]}
{"id": "C117", "title": "a run rounding downward and a run rounding upward enclose the real value", "statement": "For each function and each argument of its domain, the result computed with the processor rounding downward is not above the real value and the result computed rounding upward is not below it.", "quantifier": "for all arguments of the domains of the functions", "why_tests_cant": "Running a function twice with different fesetround is how callers get a cheap interval, and it is right as long as the function only adds and multiplies positive numbers. The functions subtract, divide and change signs inside, so the two results may cross at some arguments by one unit in the last place; the tests never change the direction.", "anchors": ["include/sincos.h:fast_sincos", "include/tanh.h:fast_tanh", "include/asin.h:fast_asin", "include/asin.h:fast_acos", "include/atan2.h:fast_atan2", "include/exp.h:fast_exp", "include/log.h:fast_log", "include/atan.h:fast_atan", "include/tan.h:fast_tan", "include/sqrt.h:fast_isqrt_general", "include/inv.h:fast_inv_general"]}
