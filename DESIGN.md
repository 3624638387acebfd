# Formal model of vdt: design

Source: `/repo` (dpiparo/vdt), read as text. Nothing in `/repo` is built, run or changed.

## 1. What is modelled and how

### 1.1 Floating point (`Verif/Float/*`)
* A float is a bit pattern: a sign bit and a magnitude code (exponent and fraction fields together), for
  binary64 and binary32. All patterns exist in the model (NaN payloads, subnormals, signed zeros).
* `+ - * /`, `sqrt`, `fma`, comparisons, int->fp, fp->fp and literal conversion are "compute the exact rational,
  then round to nearest even", with the IEEE-754 rules for NaN, infinities and signed zeros.
* Arithmetic that produces a NaN produces one canonical quiet NaN. Theorems only speak about "is a NaN".
* fp->int conversion outside the range of `int32_t`, signed overflow and bad shifts are undefined behaviour (UB).
  Functions that contain such a step are written over an abstract "machine" and are instantiated twice:
  strictly (`none` = UB) and with an arbitrary oracle that supplies the value a real CPU may deliver.
* The link from rounding to real numbers (`|fl(v)-v| <= ...`, exactness, monotonicity) is proved, not assumed.

### 1.2 Scalar functions (`Verif/Model/*`)
One Lean function per C++ function, statement by statement, literals copied from the headers.

### 1.3 Array functions, code generators, diagnostics
* Memory as a map from addresses to cells; loops as written, plus any iteration order.
* Files as character lists, a file system as a map from names to contents; `operator<<`/`>>` as used by the code.
  Simplified: every file can be opened for writing, `eofbit` is not kept apart from `failbit`, row counts stay below
  2^32 (`uint32_t` indices), and the number of decimals of the readable column is a parameter.
* `CmdOptions`, `list2vector`, statistics, timers as plain functions on lists and integers (with wrap-around).
* The CMake files as programs of a small interpreted language, the command line of the generator, the inclusion
  of headers (`Model/Build.lean`).
* The Python scripts as programs of an interpreter for the statements they use (`Model/PyScripts.lean`).

## 2. Trusted base
* Lean 4.33 kernel; axioms `propext`, `Classical.choice`, `Quot.sound` only.
* The reading of C++11 + IEEE-754 given in 1.1: strict evaluation in the declared type, no excess
  precision, no fast-math reassociation (C99: the CMake files pass no such flag unless `USERFLAGS` does; C108: progs/numpyBootstrap.csh does), default rounding mode,
  no flush-to-zero (C114 says what changes with it). Contraction of products and sums into fused operations (the CMake option `FMA`) is not assumed away
  for the accuracy statements: C75-C79 prove them for every choice. The other statements are about the unfused code.
* `log2` of libm is a parameter of `diffbit`; `Log2Ok` lists the assumptions (met by any faithfully rounded `log2`).
* `libm` functions used only "for comparison" (`std::exp` ...) are not modelled. `std::sqrt`, `std::fabs`,
  `std::copysign`, `std::fma` are modelled as the exact IEEE operations.
* `std::mt19937_64` is a parameter (an arbitrary stream of 64-bit numbers; for C111 and C112 it is modelled after the C++ standard, `Model/Mersenne.lean`); `std::uniform_real_distribution<long double>`
  is modelled as libstdc++ implements it, with the 64-bit significand of x86 `long double`.
* Not modelled: timing itself, `std::thread`-like behaviour (there is none), the Vc and numpy
  libraries beyond the element loops, plotting scripts.

## 3. Properties and proof plan
(see `properties.jsonl` for the full statements, `MANIFEST.json` for what is proved)

| id | plan |
|----|------|
| C01, C03 | exact argument reduction lemma, rational/polynomial approximation of e^r proved in the reals (Taylor remainder + polynomial bounds), rounding error of the straight-line code by a verified error analyser |
| C02, C04 | case analysis on the model; oracle quantification for UB; the parts that fail are refuted by kernel evaluation |
| C05, C07 | as C01 with ln(1+x), derivative bound of the approximant; C06 by case analysis, failing classes refuted |
| C08, C10, C12 | proved: the quadrant number is even and within one of `4x/pi`; the products `y*DP1`, `y*DP2` and the first subtraction are exact, so the reduction costs two half-ulps; polynomials against the Taylor polynomial (remainder by induction with the mean value theorem); quadrant logic by the bits of the quadrant number; the reduction error cancels in `s^2+c^2` |
| C09 | symmetry of the model under sign flip; `-0` is a counterexample for sin |
| C11 | characterise exactly when the int conversion is in range; refuted beyond |
| C13, C15 | proved as C08 for the core on \|z\| <= 0.787; `tan(m pi/2 + z)` by the addition law, the error of the reduced argument divided by a lower bound of the distance of a double (float) to the nonzero multiples of `pi/2`, which is a verified table per binary exponent; smaller ranges of arguments give the sharper bounds `..._to_8192`, `..._to_32`, `..._to_128` |
| C14 | partial: NaN exactly for 0 < \|x\| <= 2^-1024 (2^-128); sign of zeros; oddness of every result that is not NaN |
| C16 | proved in `Props/Tanh.lean`: `2t` is representable, so `fl(fl(t*t)+1) >= 2t` and the quotient never rounds above one; the Padé quotient is odd bit for bit because every operation is |
| C17, C18 | proved in `Props/Tanh.lean`: with `A = q+p`, `B = q-p` the approximant `p/q` is exactly `tanh((log A - log B)/2)`, and that argument differs from `w` by the integral of `w^n/(A B)` (`pade_area`); each doubling step adds at most 2.56 roundings to the relative error and turns the inherited one into at most the same relative error (`dbl_err`); the Padé quotient itself goes through the analyser |
| C19, C21 | proved in `Props/Atan.lean`: the 19th continued fraction convergent of the arctangent is within 2^-60 (`atan_conv`, derivative identity); the rational function (polynomial) of the code is compared with it by the polynomial checker; the three branches, range reduction included, go through the analyser as expressions in the original argument |
| C20 | proved in `Props/Atan.lean`: the unsigned result has a clear sign bit, so the OR restores the sign |
| C22, C24 | proved in `Props/Atan2.lean`: quotient rounded once (half an ulp below one), C19/C21 for the octant, `PI = 2 PIO2` exactly and two more roundings; the angle is `Complex.arg`, reached through polar coordinates (`arg_quad`) |
| C23 | partial, `Props/Atan2.lean`: axes, infinities, NaN and oddness for every `y` that is not a zero; the sign of a zero `y`, two infinities and `(0, NaN)` are refuted |
| C25-C28 | proved.  `Real/Asin.lean` compares the Taylor polynomial of the arcsine (44 terms) with the arcsine through the derivative: `(1-s) U(s)^2 - 1` is bounded by its coefficients, and the mean value theorem turns this into a relative error of `2^-61` up to 0.625.  The rational functions of the code are compared with that polynomial on a grid.  `Lemmas/Sqrt.lean` proves the modelled `std::sqrt` correctly rounded; the analyser runs on the pair (exact `1-a`, rounded root).  The bound by the nearest double to `pi/2` at 1 needs the tie of the last addition |
| C29, C30 | proved in `Props/Isqrt.lean`: the starting pattern `K - i/2` is taken apart into exponent and fraction, which makes `x*y0^2` one of three cubics in the fraction (`start_prod`, within 7% of one); one Newton step with its four roundings maps a relative error `e` to at most `3/2 e^2 + e^3/2 + 5u` (`newton_step`) |
| C31 | proved in `Props/Isqrt.lean`: squaring doubles the relative error and adds one rounding (`square_acc`); the OR with the sign mask gives the sign . `Props/InvLarge.lean` extends the bounds to all normal numbers (`C31_inv_all`, `C31_invf_all`): where the reciprocal is subnormal the rounding error of the last product is absolute |
| C32 | partial, `Props/Isqrt.lean`: for zero and subnormal numbers the iteration stays below the fixed point, hence positive and finite (`small_step`), which gives oddness for all finite numbers |
| C33-C35 | bit-level decomposition lemmas |
| C36 | composition of C01 and C05 |
| C37-C40 | loop invariants over the memory model, permutation invariance |
| C41, C53-C57 | the generators are functions returning text; small readers take the text apart and the result is compared, for the complete finite table, with tables written from the headers (`decide +kernel`; concatenation lemma for C41). `scripts/vdtBase.py`, imported by the generated Python module: C84; the use of `file(...)` restricts the numpy and Vc generators to Python 2 |
| C58, C59 | `reduce_coarse` counts every rounding of the three-step reduction without assuming exact products, so it covers arguments up to the overflow of the quadrant number (2^27 and below keep the sharper C08). `c <= 1` by monotonicity of rounding: the polynomial term is at most `zz*.5`, so the last sum is at most `1+2^-53`, which rounds to 1. Float: the same argument with a reduced argument up to 1.41 |
| C60 | `Model/Random.lean`, `Props/Random.lean`: the three roundings of `long double` and the conversion are followed exactly. The difference of the limits may be rounded up; `scaled_le` shows that the product with a canonical number (at most `1-2^-64`) still does not exceed the exact difference, then monotonicity of rounding keeps the sum and its conversion between the limits |
| C61 | `Model/Bench.lean`, `Lemmas/Bench.lean`, `Props/Benchmark.lean`: the constructors of `fcnResponse1D/2D` run the array function on a memory holding the inputs and an output block with arbitrary content (`respMem`); `respArray_eq` reduces this to the loop theorem of C37 |
| C62 | `Props/Benchmark.lean`: the run is a list of jobs (name, text); `main_eq`, then induction over the jobs. The names are pairwise different (checked on the complete table), the file name determines nickname and function because no function name contains a double underscore |
| C63 | `Props/BenchAccuracy.lean`: range of the pools (C60), domain and accuracy theorems of every function (C01-C32) put together in `table64`, `table32`, files read back with C44. libm is an arbitrary parameter |
| C64 | `Props/BasicNames.lean`: evaluation of the complete table |
| C65 | `Model/Compare.lean`, `Props/CheckAccuracy.lean`: the command line as a text, a shell splitter for blanks and double quotes (`shellWords`), then the option parser of C49 and the list splitter of C50 |
| C66 | `Model/Compare.lean`, `Lemmas/Compare.lean`, `Props/Comparison.lean`: header parsing (`readHeader_resp`), reading (C44), differences (C47), statistics (C48), writing and reading back (C45) put together. The conversion of `-inf` to `uint16_t`, undefined in the standard, is a parameter with the assumption `CastOk` |
| C67 | `Props/Workflow.lean`: C63, C65 and C66 put together. The loop of the comparison program is an induction (`fold_rounds`) that needs all output names to be different from each other and from all input names; the pairing of functions is checked on the complete tables |
| C68 | `Lemmas/BitDist.lean`: neighbouring floating-point numbers are at least `2^-(mb+1)` apart relatively (`magVal_gap`, induction), so two numbers close to the same real have close bit patterns (`patDist_close`). `Props/BitBound.lean`: this applied to the accuracy theorems of the fast functions and to a mathematical library that is good to one unit in the last place (`Faithful`, a parameter; `goodRef_faithful` shows that there is one), then to the files of C67. For sine, cosine and tangent the relative bounds of C69 and C13, C15 are used; `Lemmas/TrigLow.lean` bounds the values from below, so that the results are normal; the pools contain no `-0` and nothing below `2^-64` except `0`. `Props/BitBoundStd.lean`: with the conversion of the standard the check is undefined for every faithful library if the engine gives its largest number, because both arccosines are zero at 1 |
| C69 | `Lemmas/SincosRel.lean`: the reduction leaves an absolute error proportional to the multiple of π/2 (`reduced_rel`), the polynomials have a relative error (`tail_rel`, with the subnormal arguments treated apart, `rnd_tiny`), and `Lemmas/QuadReduce.lean` bounds the distance of floating-point numbers from the multiples of π/2 from below, binade by binade (table checked by the kernel, `dist64`, `dist32`). `Props/SincosRel.lean` divides one by the other and shows by witnesses how sharp the result is (`cos_far`) |
| C70 | `Model/Perf.lean`: vdtPerfBenchmark.cpp:main (clock and regular expression are parameters), the printed lines, and `extractTimings` of tabulateVDTResults.py (lines, words, `float`). `Props/Perf.lean`: every function is defined on its pool (C60 gives the ranges), the file is the concatenation of the printed lines (`section_some`), a printed line splits into the words that were printed (`extractLine_print`), and printing with two decimals then reading gives the nearest multiple of 1/100 (`twoDecimals`) |
| C71-C74 | `Model/Perf.lean`: `normaliseTimings`, `createSummaryTable`, `createVectTable`, `createLibmVdtTable`; Python exceptions are `none`, `print` with a trailing comma is modelled as items separated by one blank. `Props/Tables.lean`: the names of a full run are a fixed list, so what is skipped and paired is decided on the complete list (`libm_pairs`, `vect_shown`); times and errors are arbitrary functions of the name; the text is described by its lines and their words (`Toks`) |
| C75-C79 | `Model/Contract.lean` repeats every function with a policy (a Boolean for each sum that has a product as operand; `fast_*_plain`: the policy "never" gives the other model). `Float/Contract.lean` defines the set of all results of an expression tree under all choices and shows that the error analyser is sound for each of them (`okAbs_con`, `okRel_con`, `okLin_con`); the remaining sums (argument reductions, Newton steps, final sums of the logarithm) are bounded by hand with the product exact or rounded. The statements without policy (C01, C03, C05, ...) are instances. `Props/Contract.lean` collects them, with examples where fusing changes the result. |
| C80 | `FP.Nearest` (`Lemmas/Nearest.lean`) says "no finite number of the format is nearer, ties have an even last bit". The rounding function of the model is compared with every other code: a competitor on the same grid differs by at least a step, one from a lower binade lies below the power of two that is on the grid. The overflow threshold is exact. For the root, the integer root with sticky bit never reaches a midpoint unless the root is exact. `nearest_unique` shows that the notion determines the value. |
| C81 | insertion sort against the lexicographic order of code points; the order of the definitions read off the generated text |
| C82 | `Model/Histo.lean`: `scripts/diffhisto.py` with a backtracking matcher for `(.*) (.*) … (.*)` (alternatives of `.*` longest first); a histogram is its axes and the list of fills, ROOT and the pictures are left out, the nickname is plain text. `Props/Histo.lean`: `groups_words` (the last words are the last groups), texts of numbers read back by `float()`/`int()`; `Props/HistoRun.lean`: composition with the comparison program, bound 64/32 on the number of bits from the accuracy of `log2`; `C82_axis`: each value on an axis is in exactly one bin |
| C83 | the pool limits (C60) against `getYaxisRange` of every name of the function tables; whole limits survive decimal rounding (`Shown.between`) |
| C84 | `Model/PyCall.lean`: `vdtBase.py` and `invokeVDT.py` with the cache, `ctypes` argument checks, buffers as blocks of their own, and an interpreter for the lines of the generated module. `Props/PyCall.lean`: the loops are maps (`loop11`, `loop21`, `loop12`), the cache always holds what a fresh load would give (`Good`, `reach_good`, because every function of the module has a name of its own and passes it on), the precision follows from the last letter. `Props/PyConvert.lean`: what the conversion of the elements does (nearest number, exact from float to double). Assumed: `numpy.require`, `empty_like`, the argument checks of `ctypes`, `numpy.float` = double |
| C85 | `Props/Monotone.lean`, `Props/MonotoneB.lean`. Logarithm (`Lemmas/LogMono*`, `Log*Order`): the sum `x - x²/2 + x·(x²·P/Q)` before its last rounding differs from a rational function of slope at least `c` by less than `c` times half the distance of neighbours (slopes by `pslope`, errors by the analyser), exact cancellation `(x-1)` included; the seams between two exponents are evaluated for all 2047 (255) exponents by the kernel with the fast integer rounding of `Float/IntRound.lean`. Arcsine, arccosine and arctangent (`Props/MonotoneC.lean`, `Props/MonotoneD.lean`, `Lemmas/As*Mono`, `At*Mono`): the same error argument where the polynomial part is small (`core_order`); where it is not (arcsine on [.47,.625], arctangent on [.414,.66] in double precision) `Float/Delta.lean` bounds the difference of the results for two neighbouring arguments operation by operation, and `adj_run` chains neighbours; the reduced argument (x-1)/(x+1) is ordered by `quot_order`; seams by evaluation. The exponential, the hyperbolic tangent, the inverse square root and the reciprocal are not monotone: witnesses, and order for arguments a few ulps apart from the accuracy theorems |
| C86 | `Model/Ufunc.lean`, `Props/Ufunc.lean`. The eight inner loops as calls through a pointer type, the calls of `PyUFunc_FromFuncAndData` with their tables, numpy's choice of a row of types and its call of the loop (assumptions listed in the file) on byte addressed memory. One loop theorem for any number of input and output arrays (`ptrLoop_spec`), the tables by evaluation; violated for other distances. `Model/NpUfunc.lean`, `Props/NpUfunc.lean`: the older module `npufunc` (src/expfWrapper.c), shown to choose and call the loops as `vdt_exp` does |
| C87 | `Props/Direction.lean`. All comparisons of the code are the same for vectors of one direction (`dir_tests`); the quotients are equal as rationals, hence equal after rounding (`div_ratio`); the octant function sees only the quotient (`oct64C_eq`). Multiplication by `1 - 0` and addition of `0` are shown exact (`Props/Mirror.lean`: the images of a vector, from the quadrant function `quad`) |
| C88 | `Lemmas/Scale.lean`, `Props/Scale.lean`. Rounding commutes with powers of two in the normal range (`rnd_scale`); the integer subtraction on the bit pattern lowers the exponent by `k` (`start_shift`); bounds for all intermediate results of a Newton step keep them in the normal range (`newton_bounds`), so that the two runs of the loop stay in proportion (`loop_scale`) . `C88_powers_*`: the result at 1 is evaluated by the kernel, the scaling theorem carries it to all powers of four; `C88_powers_limits` shows that no other version of the functions is exact at 1 |
| C89 | `Props/Builds.lean`, from the accuracy statements for all policies (C75-C79): two results close to the same nonzero real have neighbouring bit patterns (`patDist_le`). That the sine, cosine and tangent of a nonzero floating-point number are not zero follows from the irrationality of pi |
| C90 | Model/Report.lean models the printing functions of vdtdiag_helper.h (`std::cout` is a precision and a text; decimal output is a parameter) and three programs of progs/units. `C90_bits`/`C90_bitsf`: the three groups of digits are the fields of the number, proved by induction on the length of a segment of the bit string. `C90_report`/`C90_report_array`: equal reports come from equal results (cutting at line breaks). `C90_defined_partial`: a report is defined exactly if all pairs of results differ. `C90_violated`: none of the three programs is defined, each meets a pair of equal results. `C90_violated_libm`: the same for the tests of exp, tan, tanh, asin, acos, atan and atan2, for every C library with the exact values of Annex F. `C90_precision`: the first argument of a program is written with six digits, later ones with ten. |
| C91 | Model/UnitTests.lean composes the classes of Model/Persist.lean as the programs test_randomPool, test_fcnResponse and test_fcnComparison do (names of files as in the sources, output to the terminal left out). `C91_randomPool`, `C91_response`: at the end all eight files give the numbers and rows, for every content of the disk before. `C91_comparison_partial`: one input. `C91_comparison2`/`C91_violated`: with two inputs the program uses the class for one input; statistics come back, rows do not. |
| C92 | Model/Fatlib.lean models src/fatlib.h: a target per machine, fused sums where the target has the instruction and the compiler likes. `C92_fmaF`: error bound on every target; `C92_fmaF_exact`: correctly rounded if the product is a number of the format; `C92_without`: targets without the instruction agree; `C92_arch`: the text of `vdt_arch` names the target. `myfmaD` returns `float`: `C92_fmaD_partial` gives single precision, `C92_violated` refutes double precision on every target. |
| C93 | `Real/RoundTrip.lean`: how an error of the inner function passes through the outer one, on the reals (`rt_exp`, `rt_log`, `rt_tan`, `rt_atan`, `rt_asin`, `rt_inv`). `Props/RoundTrip.lean`: these applied to the accuracy theorems C75-C79 of both functions, each with its own contraction policy. Bounds grow where the composition cannot do better: exp after log with the size of the logarithm, tan after atan with the argument |
| C94 | `Props/Precisions.lean`: a float is the same number in double precision (`encl_rel`), normal there and in the range of every double function; the accuracy theorems C75-C79 of both functions are then compared (`agree_rel`, `agree_abs`) |
| C95 | `Lemmas/ReducefMid.lean`: up to `2^17` the octant times `DP1F` and the first subtraction are exact (`dp1_exact`, `nmad_exact`), and the error is that of the second product (`mid`, one instance for each power of two of it). `Lemmas/SincosfFar.lean`: every rounding error of the reduction counted beyond (`reduce_far`, fused or not); the polynomials outside their interval (`sincosf_eval_of`). `Props/SincosfFar.lean`: the bounds, and arguments at which the double function (C76) shows the error of the float function (`C95_sharp`) |
| C96 | `Real/Identities.lean`: how errors of the factors spread in each equation, on the reals. `Props/Identities.lean`: the equations for the modelled functions from C75-C79, each evaluation with a policy of its own; the joined argument (sum, product, quotient) is required to be exact, products and sums of results are taken on the reals |
| C97 | `Lemmas/TrigWide.lean`: the reduction of C08 once more up to 530000000 (`reduce64C_mid`, where octant times `DP1` still has 53 bits), and with every rounding counted up to `2^30` and to the last defined argument (`reduced64_30`, `reduced64_wide`, from `reduce_far` of C95); the tails of sine, cosine and tangent for any reduction error. `Props/TrigWide.lean`: the bounds, and an argument next to a multiple of `π` at which the error is `2^-23` (`C97_sharp`) |
| C98 | Nearest number at distinguished arguments (`Props/Exact.lean`; `FP.Nearest` of `Lemmas/Nearest.lean` is nearest with ties to even among all finite numbers). A power of two has mantissa 1/2, so the blend leaves `x - 1 = 0` and every policy collapses to `rnd(k·355/512 - rnd(k·C))`; the table of all 1023 (128) exponents is evaluated in integers (`rndF`) and compared with the roundings of two rationals enclosing `k·log 2`, and the set of reals with the same nearest number is an interval. On the diagonals the quotient is 1, the reduced argument 0, and C87 carries the unit vectors to all lengths. `C98_sharp`: the double arccosine of 1/2 is one unit off. |
| C99-C103 | `Model/Build.lean` is an interpreter for the CMake commands in use (set, option, if with its rules for names, constants and versions, fatal errors, executed programs), and the CMake files are transcribed as its programs, so that a variable set in the wrong branch is set in the wrong branch of the model too. `Lemmas/Build.lean` executes them block by block for an arbitrary environment (`configure_run`). `Props/Build.lean`: the words of the flags (C99), the version check on printed version numbers, the settings that never take effect (C100), the command line of the generator through shell splitting and option parser down to the file written (C101), inclusion as a relation and its transitive closure (C102), and the table of ReadMe.md against the definitions found in the generated source by C41 (C103). Not modelled: cache types, targets and link lines, other shell syntax. |
| C104 | The sharp version of C29-C31 (`Props/Sharp.lean`). With `c` the fraction of the magic constant, `x·y0²` is one of `(1+2t)(1+c-t)²/2`, `(1+2t)(2+c-t)²/8`, `t(2+c-t)²/2`; its least value is `(1+2c)/2` and its greatest `(1+2c/3)³/2` (inequality of the means, `amgm3`), so the relative error of the starting value lies in `[-0.034376, 0.033988]` and the first step leaves at most `0.0017525` (`newton_first`: the sign matters, since the exact step maps `d` to `-d²(3+d)/2`). The further steps are the recurrence of C29. The lower bounds are evaluations of the model at one argument and a comparison of rational numbers: `x·y² < (1-ε)²` excludes that `y` is within `ε` of `1/√x` (`far_isqrt`). |
| C105 | `Props/Acos.lean`. The arc cosine is at least the chord `√(2(1-x))` (from `1 - t²/2 ≤ cos t`), which turns the absolute accuracy of C27/C28 into the relative one; the numbers below one are at most `1 - 2^-53` and `1 - 2^-24`. The same inequality proves the witnesses of the violation: `y² < (1-ε)²·2(1-x)` excludes that `y` is within `ε` of the arc cosine. |
| C106 | `TightBound D g h tol` (Props/Worst.lean): on `D` the result of `g` is finite and within `tol` of `h`, and for some argument of `D` the error exceeds `tol/4`. The upper half is the accuracy theorem of the function. For the lower half the exact value is enclosed between two decimal fractions (Real/Encl.lean): Taylor sums over `ℚ` with their remainders for exp, sine and cosine; the inverse functions by comparing the function at the two fractions; tangent and hyperbolic tangent from sine/cosine and `exp 2x`. The remaining inequalities are between rational numbers. The second argument of atan2 and the reciprocal functions (C104) are not repeated here. |
| C107 | `Model/PyScripts.lean` is an interpreter for the part of Python 2 the scripts use (modules with their own global variables, `import`, `from … import *`, functions with local variables, attributes, `VDTFunMap`, `timeit`), in which an array is its element type and length and which records the operations applied; the calls go through the models of C55, C85 and C86 (`moduleDefs`, `loadit`, `ufuncs`, `pick`). The scripts, the notebooks and `src/vdt.py` are its programs. `Props/PyScripts.lean` states what is to be timed below each heading independently (`npWork`, `vdtWork`, `Comparable`) and evaluates each script in the kernel: the scripts have no input, so the evaluation covers all their runs. Simplified: `timeit` runs its code once, the argument `requires` and keyword arguments are left out, printed values are not modelled. |
| C108 | `Model/Reassoc.lean`: the reductions of sine, cosine and exponential as expression trees, the functions with the tree as a parameter (`source` shows that the trees of the headers give the functions of the headers), the command line of the bootstrap script, the options that permit replacements. `Props/Reassoc.lean`: a permitted result is one of any choice of fused operations (C75, C76) or, with such an option, one of a tree that is equal for real numbers (`Same`). For the CMake configurations by C99, C75 and C76; for the bootstrap script the tree with the common factor taken out, evaluated at four arguments and compared with the accurate result. Not modelled: replacements elsewhere, and the other liberties of `-Ofast` (no NaN, no infinities, reciprocals). |
| C109, C110 | `Model/Fpe.lean`: every function once more, each operation with the exceptions it raises (IEEE 754, section 7); values that are overwritten later have raised theirs. `Lemmas/FpeSource.lean`: the values are those of the models. C109: two rules. `Good`: if the result of a chain of operations is finite, none of them raised anything (so the accuracy theorems suffice where there is no division). `Sm`: a bound of the size of every intermediate value, computed by type-class search; it serves denominators and parts that are computed and thrown away, such as the large branch of `fast_asin`. C110: `Told`: a NaN does not appear without the invalid exception; with C25 this gives the domain errors of the arc sines. |
| C111, C112 | `Model/Mersenne.lean`: the engine `std::mt19937_64` as the C++ standard defines it (its 10000th output for the default seed, which the standard states, was evaluated; the first is an `example`), `randomPool_old`. `Model/Deprecated.lean`: `fcnResponse_old`, `fcnComparison_old`. C111: the words of the state form one sequence with a recurrence (`word_rec`); tempering, the twist and the initialisation are invertible (`temper_inj`, `matA_inj`, `initNext_inj`), so 312 outputs determine the initial words from number 1 on, and number 1 determines the seed (`seed_eq`). C112: the models side by side, list algebra, and the round trips of C43-C45. |
| C113 | `Lemmas/TanfFar.lean`: the polynomial of the float tangent up to 0.8 (`tanf_core08`), the growth of the tangent near a point (`tan_near`) and the selection of the quadrant for any error of the reduced tangent (`tan_select`), on the reduction of C95. `Props/TanfFar.lean`: the bound, and arguments at which sine and cosine in double precision (C76) show the error (`C113_sharp`) |
| C114 | `Model/Flush.lean`: all functions once more, with operands and results replaced by zero as a parameter (`Mode`; `Mode.Ok` permits it for subnormal operands and for results up to the smallest normal number, `Mode.Full` demands it for all subnormal ones). `Lemmas/FlushSource.lean`: without replacement they are the functions of the other models. `Float/Flush.lean`: an analysis of expression trees that follows both evaluations and shows that they agree at the root, either because no operand or result is small or because what is lost is absorbed by a larger summand (`anZ_sound`); `Lemmas/FlushExp.lean`, `FlushLog.lean`, `FlushTrig.lean` apply it, with the interval cut into pieces for sine and cosine, `Lemmas/FlushNewton.lean` treats the Newton iteration. `Props/Flush.lean`: the equalities and the counterexamples. `FlushAtan.lean`, `FlushAsin.lean`, `FlushTanh.lean`, `FlushTan.lean` and `FlushAtan2.lean` do the same for the other functions; where a value is passed on between two trees (asin to acos, the octant to the quadrant of atan2) the analyses are chained (`chain_sound`). |
| C115, C116 | `Model/Directed.lean`: the four directions as modes of the functions of `Model/Flush.lean` (constants are rounded to nearest by the compiler). `Float/Directed.lean`: `Mode.Dir` asks only that each result is one of the two numbers around the exact one; the error analysis of expression trees is done again for such an arithmetic (`anD_sound`). `Lemmas/Directed.lean`, `DirExact.lean`: the directions are of this kind, and each returns the neighbour that it should (the least number not below the exact result rounding upward, and so on). `Lemmas/DirExp.lean`, `DirAtan.lean`, `DirAtan2.lean`, `DirAsin.lean`, `DirLog.lean`, `DirNewton.lean`, `DirTan.lean`, `DirTanh.lean`, `DirTrig.lean`: the argument reductions and the final bounds. `Props/Directed.lean`: the bounds, and for C116 the results outside of the range |
| C117 | `Props/Enclose.lean`: the crossings by evaluation of both runs; the enclosures after widening from the bounds of C115, rewritten so that they are relative to the computed results (`encl_rel`). The two runs may use any directions. |
| C42-C46 | printer/parser round trip by induction over the list of rows |
| C47, C48 | integer reasoning; `log2` of libm is a parameter with stated assumptions |
| C49, C50 | induction on the argument list / string |
| C51, C52 | wrap-around integer arithmetic; for C52 both branches of the timer, POSIX (`Model/Diag`) and Apple (`Model/TimerApple`) |

## 4. Disagreements between the stated property and the code
Each entry is a theorem (negation with a witness) next to the partial theorem that does hold.

| id | what the code does | theorems |
|----|--------------------|----------|
| C02 | `fast_exp` converts `LOG2E*x+0.5` to `int` before testing the limits, so infinities, NaN and arguments beyond about 1.488e9 are undefined behaviour. On any machine that merely returns some integer the result is right. | `C02_violated`, `C02_exp_defined_iff`, `C02_exp_overflow` |
| C04 | `fast_expf` is `+inf` from 88.376 on (advertised limit 88.72), `0` from -87.683 on (advertised -88), and shifts a negative int below -88.376. | `C04_violated`, `C04_witnesses`, `C04_expf_limits_partial` |
| C06 | `fast_log` ignores the special classes: every NaN with clear sign gives a number near 710, `+0` and all subnormals a number between -709.1 and -708.3, every finite number above 1e307 gives `+inf`. | `C06_violated`, `C06_log_nan_is_number`, `C06_log_subnormal`, `C06_log_huge`, `C06_logf_violations` |
| C09 | `fast_sin(-0)` is `+0`. | `C09_violated`, `C09_sin_zero` |
| C11 | the quadrant is computed with an `int` conversion: undefined for \|x\| >= 1686629712.xx (double), 1686629760 (float); infinite arguments give infinities. | `C11_violated`, `C11_sincos_inf` |
| C14 | `quad*(-1./res) + alt*res` computes `0*(-1/res)` on the branch not taken; for 0 < \|x\| <= 2^-1024 (float 2^-128) `1/res` overflows and `0*inf` makes the result NaN (tan.h:121, 158). | `C14_violated`, `C14_tan_nan`, `C14_tanf_nan`, `C14_tan_nan_iff_partial` |
| C33 | the sign bit is shifted into the exponent field: for negative numbers the exponent is off by 2048 (256). | `C33_violated`, `C33_getMantExponent_negative` |
| C34 | `fpfloor(-n)` is `-n-1` for integers `n >= 0` (also `-0`). | `C34_violated`, `C34_fpfloor_negative_integers` |
| C40 | the numpy loop passes `args[0]`, `args[1]` and the element count to the array function and ignores the strides: a stride of two elements or a broadcast (stride 0) input gives wrong elements, or reads outside the input. | `C40_violated`, `C40_broadcast_reads_outside`, `C40_numpy_contiguous_partial` |
| C45 | a comparison row starts with the input in decimal; `>>` does not read `inf` or `nan`, so such a row ends the reading and all later rows are lost. `fcnComparison_old` writes five header lines but skips two, so it reads no row at all. | `C45_violated`, `C45_nonfinite_truncates`, `C45_old_reads_nothing`, `C45_comparison_partial` |
| C46 | `writeFile` of an object made from a file opens the target (truncating it) before it opens the source, so writing onto the source empties it. | `C46_violated`, `C46_pool1D_self`, `C46_pool1D_copy_partial` |
| C47 | `diffbit(a,a)` converts `log2(0)+1 = -inf` to `uint16_t` (undefined). Large distances are rounded to `double` first, so the result may be one too large. | `C47_violated`, `C47_equal_undefined`, `C47_one_too_large`, `C47_diffbit_partial` |
| C48 | `m_RMS` is the sample variance, its root is never taken; for one entry it is -1. | `C48_violated`, `C48_stats_partial` |
| C51 | `m_repetitions+warm_up` and `size*m_repetitions` are `uint32_t` products, `deltat*deltat` wraps in `uint64_t`, one call divides by zero; squares of whole-array times are combined with the mean per call. | `C51_violated`, `C51_no_rounds`, `C51_calls_wrap`, `C51_squares_wrap`, `C51_single_call`, `C51_constant_times` |
| C52 | the difference of the nanosecond fields is stored in a `uint64_t`; if it is negative the sum exceeds 2^64 and its conversion is undefined. On Apple's systems the product of ticks and numerator is reduced modulo 2^64 before the division (the source says "we hope"). | `C52_violated`, `C52_elapsed_wraps`, `C52_long_times_rounded`, `C52_apple_violated`, `C52_apple_too_small` |
| C55 | `get_python_function` treats only `atan2` and `sincos` specially: `vdt_div`, `vdt_fma`, `vdt_fmac` get one parameter. | `C55_violated`, `C55_unary` |
| C56 | the Python 3 initialisation passes `fname+i` instead of `fname[i]` as the name, and does not register `div`, `fma`, `fmac`. | `C56_violated`, `C56_missing`, `C56_wrong_names` |
| C23 | `fast_atan2` ignores the sign of a zero `y` (`(-0, 1)` gives `+0`, `(-0, -1)` gives `+pi`), returns NaN for two infinities and `0` for `(0, NaN)`; the same for `fast_atan2f`. | `C23_atan2_violated`, `C23_atan2f_violated`, `C23_atan2_witnesses`, `C23_atan2_y_zero_partial` |
| C32 | `fast_isqrt(0)` is a finite number (about 2^513.9); `fast_isqrt(+inf)` is `+inf` and `fast_approx_isqrt(+inf)` is `-inf` (the loop alternates); `fast_inv(+-inf)` is `+-inf`; `fast_approx_inv(-inf)` is `+inf`, so the approximate reciprocal is not odd; `fast_isqrt(-1)` is a number. | `C32_isqrt_inv_violated`, `C32_inv_zero`, `C32_inv_odd_partial`, `C32_isqrt_positive` |
| C58 | the float reduction loses all accuracy beyond about 2^24: `fast_sincosf(1071342400)` returns a number above 10^12. | `C58_violated`, `C58_float_witness`, `C58_sincosf_range_partial` |
| C64 | the exact reciprocal is called `Inverse`, its fast version `Fast_Inv`; with Vc the function lists `VC_...` names as basic names. | `C64_violated`, `C64_vc`, `C64_basic_names_partial` |
| C65 | a comma in the nickname splits the file names of the accuracy check. | `C65_violated`, `C65_command_partial` |
| C66, C67 | two equal outputs make the comparison program convert `-inf` to `uint16_t` (undefined); with `Atan2` in the nickname the files of all functions are read as having three columns, so that the comparison of two one-row responses is empty. | `C66_equal_undefined`, `C66_violated`, `C67_violated`, `C66_nickname`, `C67_strict_undefined`, `C66_compare_partial`, `C67_workflow_partial` |
| C69 | near the multiples of π/2 three-part reduction loses bits: `fast_cos` at the double nearest to 29π/2 has a relative error above 2^-43 (about 500 units in the last place), `fast_cosf` at the float nearest to 161π/2 above 2^-15. | `C69_sharp`, `C69_sharpf`, `C69_relative`, `C69_relativef` |
| C70 | pool limits above about 1.6·10^9 make `fast_sin` convert a number that does not fit (undefined); the options accept any limit. | `C70_large_pool_undefined`, `C70_performance_file` |
| C71 | with a pattern that excludes `Identity` the script stops (`offsetErr` is not set); with one that excludes only later identities the times are reduced by the identity of another kind. | `C71_needs_identity`, `C71_own_kind_violated`, `C71_normalisation` |
| C72 | a function of vdt as fast as the identity (difference 0.00) makes the libm table stop with a division by zero; with `--no-normalise` it always stops. | `C72_libm_table`, `C72_unnormalised_violated` |
| C73 | the vector table omits `Fast_Inv` and `Fast_Apr_Inv` (names ending with `v`) and prints the error of the scalar function beside the time of the array function. | `C73_missing_rows_violated`, `C73_array_errors_violated`, `C73_vector_table_partial` |
| C74 | the summary table pairs the files by position, not by name. | `C74_different_functions_violated`, `C74_summary_table` |
| C82 | `diffhisto.py` stops with an exception on every comparison of a function of two variables (`Atan2`): the greedy expression takes the decimal first input for the number of bits. One such file in the directory stops the run. | `C82_violated`, `C82_two_inputs`, `C82_stops` |
| C82 | the option `-d` of `diffhisto.py` lists the given directory but opens the files in the working directory. | `C82_directory` |
| C82 | a NaN with all bits set against zero is reported with 65 differing bits, outside the axis for doubles. | `C82_nan` |
| C84 | the generated Python functions `vdt_div`, `vdt_fma`, `vdt_fmac` (both precisions) take one array; every call is either an exception or calls the C function with too few arguments. | `C84_violated`, `C84_div_undefined` |
| C84 | `invoke2to1` takes the size from the first array only: a shorter second array (or a number) is read behind its end. | `C84_shorter`, `C84_violated_number` |
| C85 | `fast_exp`, `fast_expf`, `fast_tanh`, `fast_tanhf` are not increasing and `fast_isqrt`, `fast_isqrtf`, `fast_inv`, `fast_invf` are not decreasing: each has neighbouring arguments (near 0.3466, 0.2983 and 1.4142) whose results are exchanged. | `C85_violated` |
| C86 | The inner loops of the numpy module ignore the distances between elements: with a number in the place of an array (`vdt_atan2(a, 1.0)`) every universal function reads beyond it. | `C86_violated`, `C86_scalar_undefined` |
| C90 | The unit tests fpDifferentBit, sqrt_test and inv_test compare equal numbers (4.f with 4.f, isqrt(4) = fast_isqrt(4), inv(1) = fast_inv(1)); `diffbit` then converts minus infinity to `uint16_t`, which is undefined. `printDifferentBit` sets the precision of `std::cout` and leaves it set, so the same argument is printed in two ways. | `C90_violated`, `C90_precision` |
| C91 | test_fcnComparison.cpp:73 reads a comparison of functions of two variables with `fcnComparison` (one input): the statistics it prints are right, but not a single row is read. | `C91_comparison2`, `C91_violated` |
| C92 | `myfmaD` (fatlib.h:68) computes in double precision but is declared to return `float`: 1*1 + 2^-30 comes back as 1. | `C92_violated` |
| C68 | a library of mathematical functions may be good to one unit in the last place and the check still is undefined: the engine's largest number is mapped to 1, where both arccosines are 0, and the comparison converts `log2(0)` to `uint16_t`. | `C68_violated`, `C68_strict_undefined` |
| C100 | CMakeLists.txt:30,45 set `COMP_IS_GCC` and `COMP_IS_ICC` after the fatal error for old versions, inside its branch, and `CMAKE_COMPILER_IS_ICC` is set nowhere: the flags for GCC (`--param inline-unit-growth=150`, …) and for the Intel compiler (`-xavx`, no `-O3`) are never used. | `C100_violated`, `C100_never` |
| C101 | src/CMakeLists.txt:12 does not quote the paths in the command line of the generator: in a directory with a blank in its name the generator is not found, and the configuration does not stop. | `C101_violated` |
| C102 | With Vc, `vdtdiag_vcWrapper.h` is written to src, but the programs that include it search include and include/diagnostic only. | `C102_violated` |
| C103 | The table of "the available functions" in ReadMe.md omits atan2, inv, approx_inv and approx_isqrt. | `C103_violated`, `C103_missing` |
| C105 | `fast_acos` and `fast_acosf` are accurate in the absolute sense only: at `1 - 2^-52` the relative error of `fast_acos` is above `2^-28`, at `1 - 2^-24` that of `fast_acosf` is above `2^-14`. | `C105_violated` |
| C107 | `nexf` of progs/vdtCtypesTest.py, timed below "timing exp", returns `np.sin(xf)`. `vscff` of progs/vdtNumpyTime.py uses `fscf`, which is not defined there (it is never called). | `C107_violated`, `C107_untimed` |
| C108 | The library of the numpy module is compiled with `-Ofast` (progs/numpyBootstrap.csh:9), which permits changes of the argument reductions under which the accuracy is lost. | `C108_violated`, `C108_loss` |
| C109 | `fast_atan2f(0, 0)` computes `0/0` and raises the invalid exception: the protection is commented out (include/atan2.h:109), ReleaseNotes.txt says that the exception was removed. The arc tangents of `±inf` raise it, too; the tangents of the smallest numbers raise overflow and invalid. | `C109_violated` |
| C110 | The logarithms of negative numbers (NaN), `fast_log` above `10^307` and the exponentials beyond their limits (infinity), `fast_isqrt` of some negative numbers (NaN) raise nothing. | `C110_violated` |
| C112 | `randomPool1D` takes an `int32_t` seed where `randomPool_old` takes a `uint32_t`; it is sign-extended to the 64 bits of the engine, so that every seed from `2^31` on gives other numbers. `fcnComparison1D` no longer checks that there are as many outputs as inputs. From `2^32` inputs on the array constructor of `fcnResponse1D` does not end. | `C112_violated`, `C112_negative_seed`, `C112_comparison`, `C112_response_large` |
| C114 | With subnormal numbers flushed to zero (switched on by linking with `-Ofast`, progs/numpyBootstrap.csh:9) `fast_isqrt` and `fast_inv` of normal numbers from `2^-1022` to `1.5*2^-1022` are wrong by a factor of more than 4, because half of the argument is flushed; `fast_tanh` is zero at normal arguments near the smallest one, although its value there is normal; the logarithms of negative subnormal numbers are finite numbers instead of NaN. | `C114_violated`, `C114_isqrt_violated`, `C114_tanh_violated`, `C114_log_violated` |
| C116 | Rounding upward, `fast_cos(1e-9)` is above 1, `fast_acos(1)` is `-2^-52`, and `fast_asin(1)` and `fast_atan(1e300)` are above half of π. | `C116_violated`, `C116_witness` |
| C117 | The result of rounding upward is below the result of rounding downward for `fast_sin(2.375)`, `fast_cos(0.8125)`, `fast_tanh(0.0625)`, `fast_asin(0.68)`, `fast_acos(1)` and `fast_atan2(1.0625, 1)`, so the two runs are no interval; both runs return the same number for `fast_acos(0.5)`, whose value is irrational. | `C117_violated`, `C117_witness`, `C117_acos_half`, `C117_float` |
