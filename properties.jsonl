{"id": "C01", "title": "Reading an element never fails and sees the right slot", "statement": "Reading a[i] on a FortranArray returns the i-th stored element when 1 <= i <= number of stored elements, and f64::MIN_POSITIVE for every other i32 index (0, negative, too large); it never panics, in a debug or a release build.", "quantifier": "every array, every i32 index, every build profile", "why_tests_cant": "The index space has 2^32 values times all array lengths; tests sample five indices.", "anchors": ["src/array/indexing.rs: Index<i32>::index"]}
{"id": "C02", "title": "Writing an element touches exactly one slot or nothing", "statement": "After a[i] = v, reading a[i] gives v and every other element is unchanged if 1 <= i <= number of stored elements; for every other index no element of the array changes. The number of elements and the shape never change.", "quantifier": "every array, every i32 index and value", "why_tests_cant": "Frame condition over all other indices and all arrays.", "anchors": ["src/array/indexing.rs: IndexMut<i32>::index_mut"]}
{"id": "C03", "title": "2-D access is column-major, injective and read-after-write consistent", "statement": "For a matrix with r rows and c columns holding r*c elements, a[(i,j)] with 1<=i<=r, 1<=j<=c is stored element (j-1)*r + i; writing it changes that element only, so that any in-range a[(i2,j2)] reads the new value iff (i2,j2)=(i,j). No in-range access panics in either profile.", "quantifier": "every shape whose element count fits i32, every pair of in-range coordinates", "why_tests_cant": "Needs all shapes and all pairs of coordinates (aliasing is a relation between two accesses).", "anchors": ["src/array/indexing.rs: Index<(i32,i32)>, IndexMut<(i32,i32)>"]}
{"id": "C04", "title": "2-D access with arbitrary coordinates", "statement": "For every pair of i32 coordinates, reading a[(i,j)] gives, and writing it replaces, the element at linear offset (j-1)*r+(i-1) if that lies inside the data; else reads give MIN_POSITIVE and writes change no element. In a release build the offset is taken modulo 2^32 and nothing panics; a debug build panics exactly when a step of the offset computation overflows i32. So coordinates outside the matrix are not always harmless: in every matrix with at least two columns a[(r+1,1)] is a[(1,2)].", "quantifier": "every array and every pair of i32 coordinates", "why_tests_cant": "All of i32 x i32.", "anchors": ["src/array/indexing.rs: Index<(i32,i32)>, IndexMut<(i32,i32)>"]}
{"id": "C05", "title": "Vec<f64> survives the round trip through FortranArray", "statement": "Converting a Vec<f64> to a FortranArray and back yields the same vector, element i-1 of which is a[i]; to_fa_2d(ld) on it gives the matrix whose element (i,j) is v[(j-1)*ld + i-1].", "quantifier": "every vector (shorter than 2^31) and every ld > 0", "why_tests_cant": "All lengths and contents.", "anchors": ["src/array/convert.rs: From<Vec<f64>>, From<FortranArray> for Vec<f64>, ToFortranArray"]}
{"id": "C06", "title": "Vec<Vec<f64>> through FortranArray and back", "statement": "Converting a square Vec<Vec<f64>> to a FortranArray and back yields the same nested vector. For an r x c input with r != c the result is c vectors of length r with the same elements in the same order, which is never the input. The conversion back panics whenever the array holds more than rows*cols elements, in particular for every non-empty 1-D array.", "quantifier": "every rectangular nested vector", "why_tests_cant": "All shapes; the tests only use 2x2.", "anchors": ["src/array/convert.rs: From<Vec<Vec<f64>>>, From<FortranArray> for Vec<Vec<f64>>"]}
{"id": "C07", "title": "Suffix views start at the requested element", "statement": "a[k..] is the sequence of stored elements k, k+1, ... to the end when 1<=k<=len, and empty for any other k; a[(i,j)..] is a[k..] for k = (j-1)*rows+i.", "quantifier": "every array whose length field matches its data, every start", "why_tests_cant": "All starts and lengths.", "anchors": ["src/array/indexing.rs: Index<RangeFrom<i32>>, Index<RangeFrom<(i32,i32)>>"]}
{"id": "C08", "title": "Display prints every element once, in storage order", "statement": "format!(\"{a}\") of an array with r rows and c columns shows the stored elements in storage order, each exactly once, grouped in r groups of c; for 1-D arrays in one group. It does not panic when the data has r*c elements. (Element (i,j) printed at row i, column j is therefore a[(i,j)] only if the matrix is symmetric; it is stored element (i-1)*c+j.)", "quantifier": "every array and precision", "why_tests_cant": "All shapes.", "anchors": ["src/array/display.rs: Display::fmt"]}
{"id": "C09", "title": "Constructors build what they say", "statement": "matrix(data,r,c) panics unless data has r*c elements and otherwise keeps the data and shape; zeros(r,c) reads 0 at every in-range coordinate; vector(data) reads data[i-1] at i; single(x) is the same array as vector(&[x]) and empty() the same as vector(&[]).", "quantifier": "every data, every r, c >= 0 with r*c < 2^31", "why_tests_cant": "All shapes.", "anchors": ["src/array/mod.rs: zeros, vector, matrix"]}
{"id": "C10", "title": "dcopy copies exactly n strided elements", "statement": "For vectors long enough, dcopy(n,x,incx,y,incy) sets element iy(k) of y to element ix(k) of x for k=0..n-1, where ix(k) = k*incx for incx >= 0 and (n-1-k)*|incx| for incx<0 (same for y, incy != 0), leaves every other element and the length of y unchanged, and neither panics nor overflows. The result does not depend on the 7-fold unrolling.", "quantifier": "every n, every increments, every vector contents; scalar operations arbitrary", "why_tests_cant": "All n (unrolled and clean-up loops), all strides, all lengths.", "anchors": ["src/blas/dcopy.rs: dcopy"]}
{"id": "C11", "title": "dcopy on short vectors and n <= 0", "statement": "dcopy with n <= 0 leaves y unchanged. If the vectors are shorter than the n elements asked for (increments 1), dcopy does not panic: elements of y beyond x are set to MIN_POSITIVE and nothing is written beyond the end of y. In general, for every count, all increments (zero included) and vectors of any length, dcopy is the sequence of n element copies in order, where elements past the end read as MIN_POSITIVE and writes to them are dropped.", "quantifier": "every n, every pair of lengths", "why_tests_cant": "All lengths.", "anchors": ["src/blas/dcopy.rs: dcopy"]}
{"id": "C12", "title": "dscal scales exactly n strided elements, once each", "statement": "For incx >= 1 and a vector with at least 1+(n-1)*incx elements, dscal(n,a,x,incx) replaces x[k*incx], k=0..n-1, by x[k*incx]*a (one multiplication each) and leaves all others and the length unchanged; it neither panics nor diverges when n*incx+1 fits i32. On a shorter vector the strided elements that exist are scaled, once each, and nothing else changes.", "quantifier": "every n, incx >= 1, every a not equal to 1, every vector", "why_tests_cant": "All n (unrolling by 5 plus clean-up), all strides.", "anchors": ["src/blas/dscal.rs: dscal"]}
{"id": "C13", "title": "dscal no-op cases", "statement": "dscal changes nothing when n <= 0, incx <= 0 or a == 1.0.", "quantifier": "every argument combination", "why_tests_cant": "All arguments.", "anchors": ["src/blas/dscal.rs: dscal"]}
{"id": "C14", "title": "drot rotates exactly n strided pairs using the old values", "statement": "For vectors long enough and increments != 0, drot(n,x,incx,y,incy,c,s) sets (x_k,y_k) to (c*x_k + s*y_k, c*y_k - s*x_k) computed from the old values for the n strided pairs and leaves all other elements unchanged, without panic. In general, for all increments (zero included) and vectors of any length, drot is the sequence of n single rotations in order, each reading what the previous ones wrote, where elements past the end read as MIN_POSITIVE and writes to them are dropped.", "quantifier": "every n, increments, vectors, c, s; scalar operations arbitrary", "why_tests_cant": "All n and strides, frame condition.", "anchors": ["src/blas/drot.rs: drot"]}
{"id": "C15", "title": "drot is an isometry and invertible when c^2+s^2=1", "statement": "In exact arithmetic, if c^2+s^2=1 then drot preserves the sum of squares of each pair, and drot with (c,-s) applied to the result restores the original vectors.", "quantifier": "every n, increments, finite vectors", "why_tests_cant": "Universally quantified real identity.", "anchors": ["src/blas/drot.rs: drot"]}
{"id": "C16", "title": "dnrm2 is the Euclidean norm", "statement": "In exact arithmetic dnrm2(n,x,incx) equals the square root of the sum of the squares of the n strided elements, as long as the vector does not mix elements above 2^505 with elements below 2^-511. For a mixed vector the small elements are ignored, and only they.", "quantifier": "every n, every increment, every finite vector", "why_tests_cant": "All vectors; Blue's three accumulators and their combinations.", "anchors": ["src/blas/dnrm2.rs: dnrm2"]}
{"id": "C17", "title": "dnrm2 special values on f64", "statement": "On IEEE f64: dnrm2 of n <= 0 is 0; of a zero vector is 0; a NaN among the n elements makes the result NaN; an infinite element, of either sign, without any NaN makes it plus infinity.", "quantifier": "every n, every increment, every f64 vector", "why_tests_cant": "All f64 vectors including infinities and NaN payloads.", "anchors": ["src/blas/dnrm2.rs: dnrm2"]}
{"id": "C18", "title": "dnrm2 can overflow although the norm is far below MAX", "statement": "On IEEE f64, dnrm2 of 2^14 or more copies of 2^505 (true norm of 2^14 copies: 2^512, f64::MAX is about 2^1024) returns +infinity, for every stride, because f64::DIGITS (15, decimal) is used where the number of binary digits (53) is meant and these elements count as medium sized.", "quantifier": "every number of copies from 2^14, any stride", "why_tests_cant": "Needs vectors of 16384 huge elements; and the claim is universal.", "anchors": ["src/blas/dnrm2.rs: tbig"]}
{"id": "C19", "title": "lsame compares letters ignoring case", "statement": "For ASCII characters lsame(a,b) is true iff a and b are equal after ASCII upper-casing; it is reflexive, symmetric and transitive on all characters. (For characters above U+00FF it compares the low byte only, so distinct characters can match.)", "quantifier": "every pair of characters", "why_tests_cant": "0x110000^2 pairs.", "anchors": ["src/blas/lsame.rs: lsame"]}
{"id": "C20", "title": "dgemm computes alpha*op(A)*op(B)+beta*C", "statement": "In exact arithmetic, for transa, transb in {N,T,C} in either case, all m,n,k >= 0, all leading dimensions satisfying the documented constraints and data long enough, entry (i,j) of C afterwards is alpha * sum_l op(A)(i,l)*op(B)(l,j) + beta*C(i,j).", "quantifier": "every shape, leading dimensions, finite matrices and scalars", "why_tests_cant": "All sizes; four transpose branches, beta and alpha special cases.", "anchors": ["src/blas/dgemm.rs: dgemm"]}
{"id": "C21", "title": "dgemm writes only the m-by-n block of C", "statement": "Every stored element of C that is not at (i,j) with 1<=i<=m, 1<=j<=n (e.g. the padding rows when ldc > m) is unchanged, the length of C is unchanged, and A and B are never modified; no panic and no overflow in either profile.", "quantifier": "every valid argument list, any scalar arithmetic", "why_tests_cant": "Frame condition over all other elements.", "anchors": ["src/blas/dgemm.rs: dgemm"]}
{"id": "C22", "title": "dgemm rejects illegal arguments with the right parameter number", "statement": "If an argument is illegal, dgemm terminates the process through xerbla(\"DGEMM \", p), where p is the number of the first illegal argument in the order transa(1), transb(2), m(3), n(4), k(5), lda(8), ldb(10), ldc(13); if all are legal it never does. (For flat vectors a zero leading dimension panics with a division by zero before the check.)", "quantifier": "every argument list", "why_tests_cant": "All combinations of several illegal arguments.", "anchors": ["src/blas/dgemm.rs: dgemm", "src/xerbla.rs: xerbla"]}
{"id": "C23", "title": "dgemm with beta = 0 ignores the old C, with alpha = 0 ignores A and B", "statement": "With beta == 0 the result does not depend on the old contents of the m-by-n block of C (so NaN there does not propagate), and with alpha == 0 it does not depend on A and B; with (alpha == 0 or k == 0) and beta == 1, or m == 0, or n == 0, C is unchanged.", "quantifier": "every argument list, any scalar arithmetic (in particular f64 with NaN)", "why_tests_cant": "Non-interference quantifies over pairs of inputs.", "anchors": ["src/blas/dgemm.rs: dgemm"]}
{"id": "C24", "title": "dgemm performs a fixed sequence of roundings per entry", "statement": "For every scalar arithmetic (in particular f64) entry (i,j) of the result is given by one explicit expression: for op(A)=A, starting from beta*C(i,j) (or 0, or C(i,j)), add (alpha*op(B)(l,j))*A(i,l) for l=1..k in this order; for op(A)=A^T, alpha*(sum over l in order from 0)+beta*C(i,j). The result of each entry is independent of m, n, lda, ldb, ldc and of all other entries.", "quantifier": "every shape and every scalar arithmetic", "why_tests_cant": "Bit-for-bit statement for all inputs.", "anchors": ["src/blas/dgemm.rs: dgemm"]}
{"id": "C25", "title": "dtrmm computes alpha*op(A)*B or alpha*B*op(A)", "statement": "In exact arithmetic, for 2-D arrays and square nested vectors, dtrmm overwrites the m-by-n block of B by alpha*op(T)*B (side L) or alpha*B*op(T) (side R), where T is the triangle of A named by uplo, with ones on the diagonal if diag is U.", "quantifier": "all 16 variants, all m,n, all finite matrices", "why_tests_cant": "All sizes; the in-place order of updates matters for every size.", "anchors": ["src/blas/dtrmm.rs: dtrmm"]}
{"id": "C26", "title": "dtrmm reads only the named triangle", "statement": "The result of dtrmm does not depend on the elements of A in the opposite triangle, nor on the diagonal if diag is U; A is returned unchanged; elements of B outside the m-by-n block are unchanged.", "quantifier": "every argument list, any scalar arithmetic", "why_tests_cant": "Non-interference quantifies over pairs of inputs.", "anchors": ["src/blas/dtrmm.rs: dtrmm"]}
{"id": "C27", "title": "dtrmm argument checks and trivial cases", "statement": "dtrmm terminates the process through xerbla(\"DTRMM \", p) iff an argument is illegal, p being the first illegal one in the order side(1), uplo(2), transa(3), diag(4), m(5), n(6), lda(9), ldb(11); m == 0 or n == 0 changes nothing; alpha == 0 sets the block of B to 0 without reading A.", "quantifier": "every argument list", "why_tests_cant": "All combinations.", "anchors": ["src/blas/dtrmm.rs: dtrmm"]}
{"id": "C28", "title": "dtrmm on flat vectors touches at most the first m elements", "statement": "For matrices passed as flat Vec<f64>, dtrmm returns A unchanged and never changes an element of B at position m or later (0-based), whatever the leading dimension: the leading dimension is not honoured, and e.g. alpha = 0 does not clear the second column. Cause: dtrmm calls to_fa, which makes a 1-D array.", "quantifier": "every flat matrix and legal arguments", "why_tests_cant": "The failure is silent and size dependent.", "anchors": ["src/blas/dtrmm.rs: dtrmm", "src/array/convert.rs: to_fa"]}
{"id": "C29", "title": "dlacpy copies exactly the selected part", "statement": "dlacpy(uplo,m,n,A,lda,B,ldb) sets B(i,j)=A(i,j) for the selected (i,j) (all 1<=i<=m, 1<=j<=n for a uplo other than U and L; i>=j for U; i<=j for L, with n <= m), and changes nothing else.", "quantifier": "every shape, leading dimension and contents, any scalar", "why_tests_cant": "All shapes and frame condition.", "anchors": ["src/dlacpy.rs: dlacpy"]}
{"id": "C30", "title": "dlaset fills exactly the selected part", "statement": "dlaset(uplo,m,n,alpha,beta,A) on a 2-D array sets the selected off-diagonal entries to alpha and the first min(m,n) diagonal entries to beta and changes nothing else. (For L with n > m it also writes beyond row m; on flat vectors columns after the first are not written.)", "quantifier": "every shape and contents, any scalar", "why_tests_cant": "All shapes and frame condition.", "anchors": ["src/dlaset.rs: dlaset"]}
{"id": "C31", "title": "dlamch returns the machine parameters of f64", "statement": "dlamch returns eps=2^-53 for E, 2^-1022 for S (1/S is finite), 2 for B, eps*2 for P, 53 for N, 1 for R, -1021 for M, 2^-1022 for U, 1024 for L, f64::MAX for O and 0 for every other character (lower-case letters included); 1+dlamch(P) is the f64 following 1 and 1+dlamch(E) rounds to 1; no finite f64 has magnitude above dlamch(O).", "quantifier": "every character", "why_tests_cant": "All characters.", "anchors": ["src/dlamch.rs: dlamch"]}
{"id": "C32", "title": "dlapy2 is sqrt(x^2+y^2)", "statement": "In exact arithmetic dlapy2(x,y) = sqrt(x^2+y^2) for all |x|,|y| <= f64::MAX.", "quantifier": "all real x, y", "why_tests_cant": "Universally quantified real identity.", "anchors": ["src/dlapy2.rs: dlapy2"]}
{"id": "C33", "title": "dlapy2 on f64: NaN, infinities, zero and symmetry", "statement": "On IEEE f64 dlapy2 returns NaN iff an argument is NaN; +infinity if an argument is infinite and none is NaN; the absolute value of the other argument if one is a zero; and does not depend on the signs or the order of its arguments (up to the payload of a NaN).", "quantifier": "all pairs of f64", "why_tests_cant": "2^128 pairs.", "anchors": ["src/dlapy2.rs: dlapy2"]}
{"id": "C34", "title": "dlarfg builds an elementary reflector that annihilates x", "statement": "In exact arithmetic, for n >= 2, incx >= 1 and x not all zero, with beta the returned alpha and v=(1, returned x): (I - tau*v*v^T) maps (alpha, x) to (beta, 0), is orthogonal, beta^2 = alpha^2+|x|^2, beta and alpha have opposite signs, and 1 <= tau <= 2. Elements of x not in the strided vector are unchanged.", "quantifier": "every n, incx >= 1, every finite alpha and x in the range where dnrm2 is exact", "why_tests_cant": "Universally quantified identity over all sizes.", "anchors": ["src/dlarfg.rs: dlarfg"]}
{"id": "C35", "title": "dlarfg trivial cases", "statement": "For n <= 1, or when the computed norm of x is zero, dlarfg sets tau = 0 and leaves alpha and x unchanged; for every input its rescaling loop ends after at most 21 rounds, so dlarfg always returns.", "quantifier": "every input, any scalar arithmetic", "why_tests_cant": "Termination for all f64 inputs including NaN.", "anchors": ["src/dlarfg.rs: dlarfg"]}
{"id": "C36", "title": "dlaqr1 returns a multiple of the first column of (H-s1)(H-s2)", "statement": "In exact arithmetic, for n = 2 or 3 and shifts that are real or a conjugate pair, s*v is the first column of (H - s1 I)(H - s2 I), where s = |h11-sr2|+|si2|+|h21|(+|h31|); if s = 0 then v = 0 and so is that column. For other n nothing changes; only the first n elements of v change.", "quantifier": "every H, shifts", "why_tests_cant": "Universally quantified real identity.", "anchors": ["src/dlaqr1.rs: dlaqr1"]}
{"id": "C37", "title": "dlanv2 computes a standardised Schur factorisation", "statement": "In exact arithmetic dlanv2 returns (a,b,c,d),(cs,sn) with cs^2+sn^2=1 and [A B;C D] = [cs -sn; sn cs][a b;c d][cs sn;-sn cs], and either c=0 or (a=d and b*c<0), except that if 0<|A-D|<2^-52 and B*C<0 the input comes back unchanged with cs=1, sn=0, which is never in that standard form.", "quantifier": "all real A,B,C,D of magnitude at most f64::MAX/4", "why_tests_cant": "Universally quantified real identity over five branches.", "anchors": ["src/dlanv2.rs: dlanv2"]}
{"id": "C38", "title": "dlanv2 returns the eigenvalues", "statement": "In exact arithmetic rt1r + i*rt1i and rt2r + i*rt2i are the two roots of the characteristic polynomial of [A B;C D]: their sum is the trace, their product the determinant, and they are both real or conjugate; except that if 0<|A-D|<2^-52 and B*C<0 the returned pairs are never the eigenvalues (their product is not real).", "quantifier": "all real A,B,C,D of magnitude at most f64::MAX/4", "why_tests_cant": "Universally quantified real identity.", "anchors": ["src/dlanv2.rs: dlanv2"]}
{"id": "C39", "title": "ieeeck verdicts on f64", "statement": "On IEEE f64 ieeeck(ispec,zero,one) is 1 if ispec = 0, zero is +0 and one is positive and finite, and 0 for all other arguments (so asking for the NaN check, ispec = 1, always gives 0).", "quantifier": "all f64 arguments", "why_tests_cant": "2^128 argument pairs.", "anchors": ["src/ieeeck.rs: ieeeck"]}
{"id": "C40", "title": "ilaenv answers every query in range", "statement": "ilaenv(ispec,..) returns -1 for ispec outside 1..17; 6, 2, 1, 50, 25, 0, 1 for ispec 4, 5, 7, 8, 9, 10, 11; and for a usable name a block size between 1 and 240 for ispec 1, a minimum block size 1, 2 or 8 for ispec 2 and a crossover point 0, 32, 128 (or 1 for a foreign name) for ispec 3. An ASCII name of at least six letters starting with a lower-case one gives the same answer as its upper-case spelling; an ASCII name starting with an upper-case letter followed by a lower-case one is never recognised (block size 1). ispec 1..3 panics on an empty name and on a name shorter than six letters starting with a lower-case one, and on no other ASCII name. On names with non-ASCII letters byte and character positions are confused: a name starting with S, D, C or Z of at least 11 bytes but fewer than 11 characters panics; but whenever ilaenv returns, the answer is in the ranges above. ispec 6 returns 1.6*min(n1,n2) rounded to the nearest integer (saturating); ispec 12..17 is iparmq with ilo = n2, ihi = n3. For ispec 1: 32 for DGEQRF, DGEHRD, DORGQR; 64 for DSYTRF, DTRTRI, DLAUUM; 32 for DGBTRF and DPBTRF if n2 or n4 exceeds 64 and else 1; 1 for DGETRF and DPOTRF; min(max(48, 16*min(n1,n2)/100), 240) for DTRSYL and min(max(24, 8*min(n1,n2)/100), 80) for ZTRSYL. For ispec 2: 2 for DGEQRF and DORMQR, 8 for DSYTRF, 1 for DORCSD; for ispec 3: 128 for DGEQRF, DGEHRD, DGGHD3, DORGQR, 32 for DSYTRD, 0 for DORMQR and DGETRF.", "quantifier": "every name, ispec and n1..n4; where a size is computed, with no overflow", "why_tests_cant": "All names.", "anchors": ["src/ilaenv.rs: ilaenv"]}
{"id": "C41", "title": "iparmq gives the number of shifts and the other QR parameters", "statement": "With nh = ihi-ilo+1, iparmq returns 75, 14, 10 for ispec 12, 14, 17; 2 shifts for ispec 15 whatever nh (the documented dependence on the size does not exist); for 13 the value 2 if nh < 500 and 3 from there on; -1 for an ispec outside 12..17. For ispec 16 and ASCII names of at least six letters (upper case throughout or starting with a lower-case letter) it returns for ?GGHRD/?GGHD3 2 if nh >= 14 else 1, for ???EXC 1 if nh >= 14 else 0, and 0 for all other names (?HSEQR and ?LAQR included); with a name of fewer than six bytes, or one starting with a non-ASCII character, it panics. If nh is not an i32 value a debug build panics for every ispec, a release build uses nh modulo 2^32.", "quantifier": "every ispec, name, ilo, ihi", "why_tests_cant": "All sizes.", "anchors": ["src/iparmq.rs: iparmq"]}
{"id": "C42", "title": "dlahqr trivial inputs", "statement": "dlahqr with n = 0 returns at once with info = 0 and changes nothing; with ilo = ihi it only sets wr[ilo] = h[(ilo,ilo)] and wi[ilo] = 0, info = 0.", "quantifier": "every matrix and flags", "why_tests_cant": "All inputs.", "anchors": ["src/dlahqr.rs: dlahqr"]}
{"id": "C43", "title": "dlahqr keeps its frame", "statement": "Whenever dlahqr returns: the sizes of h, wr, wi, z are unchanged; only entries ilo..ihi of wr and wi may have changed; if wantz is false z is unchanged; info is 0 or between ilo and ihi.", "quantifier": "every input for which it returns, any scalar arithmetic", "why_tests_cant": "Holds over all iterations of a data-dependent loop.", "anchors": ["src/dlahqr.rs: dlahqr"]}
{"id": "C44", "title": "dlahqr runs forever on a 1-by-1 top block", "statement": "dlahqr does not terminate for every matrix: whenever ilo<ihi and every subdiagonal element of the active block is negligible (on f64: finite, magnitude at most (ihi-ilo+1)*2^-970; in particular for every upper triangular matrix, the identity included) the outer loop never ends, whatever the flags, although LAPACK promises at most 30*max(10,n) iterations per eigenvalue.", "quantifier": "every such matrix, every flag, any scalar arithmetic", "why_tests_cant": "Non-termination cannot be observed by a test; divergence is a statement about all step counts.", "anchors": ["src/dlahqr.rs: dlahqr, k, l"]}
{"id": "C45", "title": "dlaqr5 trivial inputs and frame", "statement": "dlaqr5 with fewer than 2 shifts or ktop >= kbot changes none of its arguments (a zero leading dimension with a flat vector panics even then). Whenever it returns, z is unchanged unless wantz, and u, wv and wh are unchanged unless kacc22 is 1 or 2.", "quantifier": "every other argument with non-zero leading dimensions", "why_tests_cant": "All inputs.", "anchors": ["src/dlaqr5.rs: dlaqr5"]}
{"id": "C46", "title": "Debug and release builds agree", "statement": "For every call within the documented preconditions (sizes and strides such that the addressed elements exist, at most i32::MAX of them) the BLAS routines, dlacpy, dlaset and dlarfg return normally with the same result in debug and release builds (no panic, no wrapped index). Outside them they differ: dscal of two elements at stride i32::MAX panics in debug and returns the vector unscaled in release.", "quantifier": "every valid call", "why_tests_cant": "Overflow appears only at sizes no test allocates.", "anchors": ["src/blas/*.rs", "src/dlacpy.rs", "src/dlaset.rs"]}
{"id": "C47", "title": "dlapy2 on f64 is accurate and overflows only when it must", "statement": "On IEEE f64, for finite x and y and h = sqrt(x^2+y^2): if dlapy2(x,y) is finite it differs from h by at most 6*2^-53*h + 2^-1075; it is never below the larger of |x|,|y|; and it is infinite only if (1+4*2^-53)*h is at least (2^53-1/2)*2^971, the overflow threshold.", "quantifier": "every pair of finite f64", "why_tests_cant": "2^128 argument pairs; rounding error bound.", "anchors": ["src/dlapy2.rs: dlapy2"]}
{"id": "C48", "title": "dnrm2 of tiny vectors is zero", "statement": "On IEEE f64 dnrm2 returns exactly 0 for every vector whose elements all have magnitude at most 2^-1056, non-zero vectors included (dnrm2 of [5e-324] is 0): the scaling factor for small elements is 2^518 (decimal digits used for binary ones), too small to keep their squares from underflowing.", "quantifier": "every n >= 1, every stride, every such vector", "why_tests_cant": "Universal over all lengths and contents.", "anchors": ["src/blas/dnrm2.rs: ssml"]}
{"id": "C49", "title": "dlahqr is backward stable in exact arithmetic", "statement": "In exact arithmetic (deflation thresholds as coded), whenever dlahqr with wantt = true returns on a Hessenberg block H in rows and columns ilo..ihi with Frobenius norm at most 2^500: there are an orthogonal Q and a matrix E of trace zero and Frobenius norm at most nh*(30*max(nh,10)+1)*(5*2^-52*|H| + nh*2^-970), nh = ihi-ilo+1, such that the diagonal, the subdiagonal and the 2-by-2 diagonal blocks of the returned h are those of T = Q^T (H+E) Q, T is Hessenberg, its rows after info (all rows if info = 0) are quasi-triangular with standardized 2-by-2 blocks, wr and wi hold the eigenvalues of those blocks, and z (if wantz) has been multiplied by Q from the right in rows iloz..ihiz and columns ilo..ihi and nowhere else. Nothing is promised about the elements of h above the diagonal blocks (they are not those of the Schur form: the sweeps only update the active block).", "quantifier": "every Hessenberg block, size and flag wantz, every number of QR sweeps", "why_tests_cant": "Universal over all matrices and all data-dependent iteration histories.", "anchors": ["src/dlahqr.rs: dlahqr"]}
{"id": "C50", "title": "dlahqr never panics on well-sized arguments", "statement": "In exact arithmetic, dlahqr with wantt = true on a matrix of real numbers with 1 <= ilo < ihi <= n, h and z large enough, never panics in either build profile, however long it runs; wr and wi may have any length (writes beyond their end are ignored).", "quantifier": "every such matrix, every number of iterations, both profiles", "why_tests_cant": "Index safety inside an unbounded data-dependent iteration.", "anchors": ["src/dlahqr.rs: dlahqr"]}
{"id": "C51", "title": "dlahqr eigenvalues have the right trace and are those of a nearby matrix", "statement": "In exact arithmetic, whenever dlahqr returns info = 0 the real parts wr[ilo..ihi] sum to the trace of the input block exactly and the imaginary parts sum to 0; if moreover the two members of every complex pair have equal real parts, then wr + i*wi are, with multiplicity, all roots of the characteristic polynomial of H + E for an E within the backward-error bound.", "quantifier": "every Hessenberg block for which it returns", "why_tests_cant": "Universal over all matrices and iteration histories.", "anchors": ["src/dlahqr.rs: dlahqr"]}
{"id": "C52", "title": "dlahqr returns on a 2-by-2 block exactly when its subdiagonal element is not negligible", "statement": "In exact arithmetic, for an active block of order two with rows (a,b), (c,d) and Frobenius norm at most 2^500, and wantt = true: if |c| <= 2^-969, or |c| <= 2^-52*(|a|+|d|) and |b*c| <= max(2^-969*(max(|b|,|c|)+max(|d|,|a-d|)), 2^-52*|d*(a-d)|), dlahqr never returns; otherwise it returns info = 0 without any QR sweep. In particular it returns whenever |c| > 2*2^-52*|H|_F + 2^-969.", "quantifier": "every such block, every position in the matrix", "why_tests_cant": "Termination and non-termination for all inputs of the class.", "anchors": ["src/dlahqr.rs: dlahqr"]}
{"id": "C53", "title": "Comparing arrays with == is an equivalence on NaN-free arrays", "statement": "a == b holds exactly when a and b have the same shape, the same number of stored elements and, position by position, elements that compare equal as f64 (0.0 and -0.0 do); writes that fell outside the array do not influence it. On f64 == is symmetric and transitive, and a == a holds exactly when a holds no NaN.", "quantifier": "every pair or triple of arrays", "why_tests_cant": "Equivalence laws quantify over all arrays.", "anchors": ["src/array/mod.rs: impl PartialEq for FortranArray"]}
{"id": "C54", "title": "Asking for Schur vectors does not change eigenvalues", "statement": "If dlahqr returns with wantz = true then with wantz = false, whatever is passed for z, iloz, ihiz and ldz, it returns the same h, wr, wi and info, bit for bit. The same holds for h, v, u, wv and wh of dlaqr5 when kacc22 is neither 1 nor 2.", "quantifier": "every scalar arithmetic (f64 included), every container, every argument", "why_tests_cant": "Relates two runs over all data-dependent iteration histories.", "anchors": ["src/dlahqr.rs: dlahqr", "src/dlaqr5.rs: dlaqr5"]}
{"id": "C55", "title": "dlahqr has at most one result", "statement": "The result of dlahqr is a function of its arguments and the build profile only: any two bounds on the number of rounds of its outer loop under which it returns give the same result.", "quantifier": "every argument, every pair of bounds", "why_tests_cant": "All iteration counts.", "anchors": ["src/dlahqr.rs: dlahqr"]}
{"id": "C56", "title": "dlaqr5 with four or more shifts panics", "statement": "For nshfts >= 4, ktop < kbot and v of the documented shape (ldv >= 2 rows and nshfts/2 columns; up to nshfts/2-2 further columns do not help) dlaqr5 panics in debug and in release builds, whatever the matrix, the shifts and the other arguments: rebuilding v after each reflector drops the columns of the other bulges.", "quantifier": "every scalar arithmetic (f64 included), every matrix, shift and flag", "why_tests_cant": "Universal over all inputs; the failing step depends on the sizes.", "anchors": ["src/dlaqr5.rs: dlaqr5, v"]}
{"id": "C57", "title": "dlaqr5 with two shifts is a backward stable QR sweep in exact arithmetic", "statement": "In exact arithmetic (negligibility thresholds as coded), dlaqr5 with nshfts = 2 and kacc22 neither 1 nor 2, on an unreduced Hessenberg block in rows and columns ktop < kbot that is decoupled from the rest (Frobenius norm and shifts at most 2^490), returns in both build profiles, and the updated rows and columns (1..n if wantt, ktop..kbot otherwise) of h become Q^T (H+E) Q: Q orthogonal and the identity outside ktop..kbot, E of trace zero and Frobenius norm at most (kbot-ktop)*(6*2^-52*|H| + n*2^-970), the result again Hessenberg and decoupled, and column ktop of Q parallel to the first column of (M - s1)(M - s2), M the active block, for shifts s1, s2 real or conjugate (in general of (M - sr1)(M - sr2) - si1*si2). Everything else in h, and u, wv, wh, is unchanged; element (ktop+2, ktop) of h may hold anything beforehand.", "quantifier": "every Hessenberg block, size, position, pair of shifts and flag wantt", "why_tests_cant": "Universal over all matrices and all chases of the bulge.", "anchors": ["src/dlaqr5.rs: dlaqr5"]}
{"id": "C58", "title": "dlaqr5 without accumulation returns wrong Schur vectors", "statement": "That dlaqr5 multiplies z by the transformation it applies to h is false when the transformations are not accumulated (kacc22 neither 1 nor 2): on f64, for the 3-by-3 matrix with rows (1,2,1), (1,3,2), (0,1,1), shifts 1 and 2 and z = identity, an entry of z^T H z - h exceeds 4 (the loop over the bulges that updates z has its bounds swapped and repeats the last reflection). With kacc22 = 1 on the same input all entries are below 1e-14.", "quantifier": "this call, both build profiles", "why_tests_cant": "Counterexample to a universally quantified claim.", "anchors": ["src/dlaqr5.rs: dlaqr5, z"]}
{"id": "C59", "title": "dlaqr5 with accumulated transformations delivers the Schur vectors of its sweep", "statement": "In exact arithmetic, dlaqr5 with nshfts = 2 and kacc22 = 1 or 2, ldz = ldh, nv, nh >= 1 and work arrays u (4 by 4 or larger), wv (nv rows, 4 columns or more), wh (4 rows, nh columns or more), on the inputs of C57, returns in both build profiles; h becomes Q^T (H+E) Q exactly as in C57 (blocks of any size nh, nv); and if wantz, rows iloz..ihiz, columns ktop..kbot of z are multiplied from the right by the same Q, everything else in z being unchanged. If not wantz, z is unchanged.", "quantifier": "every Hessenberg block, size, position, pair of shifts, block size nv, nh and flags wantt, wantz", "why_tests_cant": "Universal over all matrices, block sizes and chases of the bulge.", "anchors": ["src/dlaqr5.rs: dlaqr5"]}
{"id": "C60", "title": "dlahqr asked for eigenvalues only returns wrong ones", "statement": "That dlahqr computes the eigenvalues also when the Schur form is not wanted (wantt = false) is false: on f64, for the 3-by-3 matrix with rows (2,-1,1), (1,0,1), (0,1,0), of trace 2, it returns info = 0 and three real eigenvalues with a sum below -0.9 (the sweeps then transform h from one side only). With wantt = true the sum is 2 up to 1e-14.", "quantifier": "this call, both build profiles", "why_tests_cant": "Counterexample to a universally quantified claim.", "anchors": ["src/dlahqr.rs: dlahqr, i1, i2"]}
{"id": "C61", "title": "dlahqr does not return the Schur form", "statement": "That z^T H z = h after dlahqr with wantt = wantz = true and z = identity beforehand is false: on f64, for the 4-by-4 matrix with rows (0,-1,2,1), (1,0,3,-2), (0,0,0,5), (0,0,1,0), dlahqr returns info = 0, an orthogonal z and the right diagonal blocks (up to 1e-14), but an entry of z^T H z - h above them exceeds 1 (the rotated columns are dropped). What does hold is C49.", "quantifier": "this call, both build profiles", "why_tests_cant": "Counterexample to a universally quantified claim.", "anchors": ["src/dlahqr.rs: dlahqr"]}
{"id": "C62", "title": "dlahqr treats nested vectors like arrays, but not flat ones", "statement": "For square matrices passed as Vec<Vec<f64>>, dlahqr returns exactly when it returns on the FortranArrays they convert to, with the same wr, wi and info and with square nested h and z holding the elements of the returned arrays in storage order. For flat vectors this is false: the leading dimension is ignored, and for the matrix with rows (1,2), (1,3) passed as [1,1,2,3] it returns the eigenvalues 1 and 0 (below 1e-300) instead of 2 +- sqrt 3, with info = 0.", "quantifier": "every square nested h and z, every other argument, both build profiles, any scalar arithmetic", "why_tests_cant": "All sizes, contents and iteration histories.", "anchors": ["src/dlahqr.rs: dlahqr", "src/array/convert.rs"]}
{"id": "C63", "title": "dgemm on f64 has a small componentwise error and does not overflow needlessly", "statement": "On f64, with u = 2^-53, every finite entry of C that dgemm returns differs from alpha*sum_l op(A)(i,l)*op(B)(l,j) + beta*C(i,j) by at most ((1+u)^(k+3)-1) * (|alpha|*sum_l |op(A)(i,l)|*|op(B)(l,j)| + |beta|*|C(i,j)|) plus (1+u)^(k+3) * 2^-1075 * (2 + k + k*|alpha| + sum_l |op(A)(i,l)|) for underflow. An entry computed from finite data is finite unless the size of the data comes near the overflow threshold; in particular it is finite if k < 2^31 and all data are at most 2^300 in magnitude. For flat, nested and FortranArray matrices.", "quantifier": "every shape, leading dimensions, f64 matrices and scalars", "why_tests_cant": "Accumulated rounding, underflow and overflow over all inputs and sizes.", "anchors": ["src/blas/dgemm.rs: dgemm"]}
{"id": "C64", "title": "dtrmm on f64 has a small componentwise error and does not overflow needlessly", "statement": "On f64, with u = 2^-53 and s the order of the triangular matrix T, every finite entry of B that dtrmm returns on FortranArrays differs from the entry alpha*sum_l t_l*x_l of alpha*op(T)*B or alpha*B*op(T) by at most ((1+u)^(s+1)-1) * |alpha|*sum_l |t_l|*|x_l| plus (1+u)^(s+1) * 2^-1075 * sum_l (1 + |alpha| + |t_l| + |x_l|) for underflow. It is finite if the data read are finite and not near the overflow threshold, in particular if they are at most 2^300 in magnitude; what A holds outside the named triangle (NaN, infinities) does not matter.", "quantifier": "every combination of flags, shape, leading dimensions, f64 matrices and scalar", "why_tests_cant": "Accumulated rounding, underflow and overflow over all inputs and sizes; eight loop nests.", "anchors": ["src/blas/dtrmm.rs: dtrmm"]}
{"id": "C65", "title": "dnrm2 on f64 is accurate from subnormal to near-overflow values", "statement": "On f64, with u = 2^-53, dnrm2 of n finite elements (n < 2^31) returns a finite r >= 0 with |r - ||x||| <= ((1+u)^(n+12)-1)*||x|| + sqrt(n)*2^-1053, and without the last term if no element is subnormal (then the error is at most 2(n+12)*2^-53 relative), provided that ||x|| <= 2^1022 and that the squares of the elements of magnitude at most 2^505 add up to at most 2^1022. The second condition (which C18 shows to be needed) holds whenever n <= 4096 or all elements are at most 2^495 in magnitude.", "quantifier": "every n < 2^31, stride and finite f64 vector with a norm in range, mixing magnitudes in any order", "why_tests_cant": "Accumulated rounding, three accumulators and all ways to combine them, over all inputs and sizes.", "anchors": ["src/blas/dnrm2.rs: dnrm2"]}
{"id": "C66", "title": "dlarfg on f64 delivers an accurate reflector from subnormal to near-overflow values", "statement": "On f64, for finite alpha and x (m = n-1 elements) whose joint norm is at most 2^1020, dlarfg returns, changes only the m named elements of x, and either leaves alpha and x alone and sets tau = 0, which happens only if the norm of x is at most sqrt(m)*2^-1052, or returns finite beta, tau and v with 1 <= tau <= 2 that differ, component by component, from an exact elementary reflector for alpha and x (one that is orthogonal, maps (alpha, x) to (B, 0), with |B| the joint norm and B of the sign opposite to alpha) by a relative error of at most 3(m+20)*2^-53, plus 2^-1075 for beta and v. This includes data so small that dlarfg rescales. As for dnrm2 (C65), the squares of the elements of x of magnitude at most 2^505 must add up to at most 2^1022, which holds if m <= 4096 or all elements are at most 2^495 in magnitude.", "quantifier": "every m < 2^31 - 1, positive stride and finite f64 data with a norm in range", "why_tests_cant": "Accumulated rounding, underflow and the rescaling loop over all inputs and sizes.", "anchors": ["src/dlarfg.rs: dlarfg"]}
{"id": "C67", "title": "dlahqr never succeeds when the first subdiagonal element of the active block is negligible", "statement": "If ilo < ihi and the element at row ilo+1, column ilo is zero, or at most (ihi-ilo+1)*2^-970 in absolute value, a return from dlahqr has info >= ilo: it never reports success, whatever the rest of the matrix, the flags and the other arguments. In exact arithmetic the same holds if that element is negligible next to its neighbours (the criterion of C52).", "quantifier": "every matrix of any order, every position of the active block, all flags, containers and numbers of iterations", "why_tests_cant": "Non-success of an unbounded iteration for every input of the class.", "anchors": ["src/dlahqr.rs: dlahqr"]}
{"id": "C68", "title": "dlahqr with an exact shift on a block of order three: one sweep, or never", "statement": "In exact arithmetic with wantt = true, for an active block of order three whose subdiagonal elements are both larger than t = 2^-51 times its Frobenius norm plus 3*2^-970: (1) if the eigenvalue s of the trailing 2-by-2 block nearer to the last diagonal element is also an eigenvalue of the whole block, and A v is further than t |v| from the line through v = (A - s)^2 e1, then dlahqr returns with info = 0, wr[ihi] = s and wi[ihi] = 0 exactly, and the eigenvalues returned are those of the diagonal blocks of a matrix exactly orthogonally similar to the input; (2) if the first row is zero right of the diagonal and the trailing 2-by-2 block does not have two distinct real eigenvalues (so that both shifts are eigenvalues of the block), dlahqr never returns.", "quantifier": "every such matrix at every position, with or without z, any number of iterations", "why_tests_cant": "Exact convergence in one step, and divergence, for every input of a continuous family.", "anchors": ["src/dlahqr.rs: dlahqr"]}
{"id": "C69", "title": "dlahqr never panics on well-sized arguments, whatever the data", "statement": "For any data (NaNs and infinities included), any wantt and wantz, and arguments of suitable sizes (h an r-by-c array, 1 <= ilo <= ihi <= n <= min(r, c), leading dimension r; z large enough if wanted), dlahqr never panics and never ends the process. Either its outer loop repeats for ever, or it returns, with the same result in a debug and in a release build, after at most ihi-ilo+1 rounds of that loop (each of at most itmax+1 QR sweeps). With wantt = false neither n nor the leading dimension matters. The same holds for square nested vectors.", "quantifier": "every size, data in any scalar arithmetic, flags, positions of the active block, build profiles", "why_tests_cant": "Index safety of an iteration whose control flow depends on the data, for all data including NaN.", "anchors": ["src/dlahqr.rs: dlahqr", "src/dlarfg.rs: dlarfg", "src/array/indexing.rs"]}
{"id": "C70", "title": "dlaqr5 with two or three shifts never panics on well-sized arguments, whatever the data", "statement": "Let the arguments be well-sized: ldh is the number of rows of h, 1 <= ktop < kbot <= n <= rows and columns of h, v has ldv >= 3 rows and at least one column, and nshfts is 2 or 3. Without accumulation (kacc22 is neither 1 nor 2) and, if wantz, with 1 <= iloz, ihiz at most the number of rows of z and rows(z)*(kbot+1) < 2^31; or with accumulation (kacc22 is 1 or 2), ldz = ldh, work arrays of suitable sizes (u at least 4x4, wv with nv >= 1 rows and 4 columns, wh with 4 rows and nh >= 1 columns) and, if wantz, z with ldh rows and at least kbot columns: then dlaqr5 returns normally, the same in debug and release builds, and keeps the shapes of h and v. The contents of h, z, v, the work arrays and the shifts do not matter: NaN, infinities and subnormal numbers included.", "quantifier": "for all scalar types, all contents of all arrays, all shifts, all sizes and index ranges satisfying the bounds, wantt, wantz, and accumulation modes", "why_tests_cant": "Tests run the sweep on a few matrices of ordinary numbers; an index out of range or an overflow on a particular combination of block, window and data would go unnoticed.", "anchors": ["src/dlaqr5.rs:1-575", "src/dlaqr1.rs:1-94", "src/dlarfg.rs:1-105"]}
{"id": "C71", "title": "dlaqr5 does not preserve the eigenvalues when a bulge collapses", "statement": "The unreduced-block condition of the dlaqr5 properties is needed, and underflow can defeat it. On f64, in debug and release builds, with and without accumulation: for a 4x4 upper Hessenberg matrix whose first subdiagonal element is zero, dlaqr5 with the shifts 1 and 2 returns an h whose trace is below 16 although the input has trace 18 (with 1 in place of the zero, trace and sum of squares are kept up to 1e-12). For a 4x4 matrix with no zero on the subdiagonal, but with the elements 1e-17 and 1e-310 there, the trace falls by more than 2 and the sum of squares of the entries by more than 15. (The reflection computed when a bulge collapses loses its scalar factor: it is inserted past the end of a one-element array.)", "quantifier": "for both build profiles and kacc22 in {0, 1}; existential in the matrix", "why_tests_cant": "The unit tests of dlaqr5 never enter the collapsed-bulge branch, and they compare with recorded outputs, not with the eigenvalues of the input.", "anchors": ["src/dlaqr5.rs:264-294", "src/array/mod.rs:64"]}
{"id": "C72", "title": "Which shifts dlaqr5 uses", "statement": "With nshfts = 2 the result of dlaqr5 depends only on the first two shifts. With nshfts = 3 it does not use a pair out of the three: it does exactly what it does with nshfts = 2 and the pair made of the second shift and the number whose real and imaginary parts are both the smallest positive normal number; only when the imaginary part of the first shift equals that number the pair is the first two shifts. (The loop that shuffles the shifts counts from 0, the arrays from 1.) In particular, for three real shifts on f64, the first and the third have no effect.", "quantifier": "for all scalar types, all shifts, all other arguments and all array containers", "why_tests_cant": "A test compares one output with a recorded one; that two of three shifts are ignored shows only when calls are compared over all shifts.", "anchors": ["src/dlaqr5.rs:71-83"]}
{"id": "C73", "title": "dlaqr5 leaves no negligible subdiagonal element above the last row of the block", "statement": "After dlaqr5 with two or three shifts, no accumulation, well-sized arguments and a block of at least three rows, the subdiagonal element in row kbot-1 and column kbot-2 of the returned h is either zero or not negligible by the Ahues-Tisseur criterion (relative to the neighbouring diagonal elements, with the neighbouring off-diagonal elements of the block as a fallback scale, unit roundoff dlamch('P') and threshold dlamch('S')*(n/dlamch('P'))) evaluated on the returned h. The same holds for every other subdiagonal element of the block except the last one (row kbot), unless both its diagonal neighbours are zero, with their absolute sum as the scale: what the sweep does after a test undoes none of them.", "quantifier": "for all scalar types, all contents, shifts, sizes and index ranges satisfying the bounds", "why_tests_cant": "The criterion has several branches (zero diagonal, zero product) that the recorded test outputs do not reach.", "anchors": ["src/dlaqr5.rs:172-192", "src/dlaqr5.rs:315-334"]}
{"id": "C74", "title": "Rounding errors of drot and dscal on f64", "statement": "On f64, for strides and lengths as in the exact-arithmetic properties, drot replaces each of the n strided pairs (x, y) by values that, whenever finite, differ from c*x+s*y and c*y-s*x by at most ((1+2^-53)^2-1) times the sum of the magnitudes of the two products plus at most two underflow errors of 2^-1075 (times (1+2^-53)^2); the results are finite if |c| and |s| are at most 2 and the data at most 2^1000 in magnitude. dscal replaces each of the n strided elements by the product rounded once (error at most max(2^-53 |a x|, 2^-1075)), and overflows only if |a x| reaches (2^53-1/2)*2^971; this includes a = 1, where nothing is written. Nothing else changes.", "quantifier": "every n, stride and contents, every coefficient, in IEEE binary64", "why_tests_cant": "Tests compare a few values with a tolerance of 1e-6; they cannot show an error bound for all data, near the overflow and underflow limits in particular.", "anchors": ["src/blas/drot.rs: drot", "src/blas/dscal.rs: dscal"]}
{"id": "C75", "title": "Rounding errors of dlaqr1 on f64", "statement": "On f64, for n = 2 or 3, a finite matrix H and shifts with parts at most 2^1000 in magnitude, both real or a conjugate pair, dlaqr1 writes n finite values w_i such that, for one number sigma >= 0 within relative error (1+2^-53)^4-1 of |h11-sr2|+|si2|+|h21|(+|h31|), sigma*w_i differs from entry i of the first column of (H-s1 I)(H-s2 I) (a real number) by at most ((1+2^-53)^7-1) times the sum of the magnitudes of the terms of that entry, plus weighted underflow errors. Nothing else in v changes; there is no overflow although the products of the entries may be far above the largest f64.", "quantifier": "every H, shifts and v with the size bound, n in {2, 3}, in IEEE binary64", "why_tests_cant": "The purpose of the scaling is to avoid overflow for extreme data; tests use entries near one.", "anchors": ["src/dlaqr1.rs: dlaqr1"]}
{"id": "C76", "title": "Backward stability of dlanv2 on f64", "statement": "On f64, for finite a, b, c, d of magnitude at most 2^1000, with c zero or at least 2^-969 in magnitude, everything dlanv2 returns is finite; the block it returns is exactly in standard form (c = 0, or a = d and b*c < 0); it is exactly similar, by an exact rotation within 200*2^-53 of the returned cs, sn, to a matrix whose entries differ from the given ones by at most 900*2^-53 times the largest magnitude of an entry; and the two returned numbers are exactly the eigenvalues of a matrix within 1030*2^-53 (same scale) of the given one. The only exception is b*c < 0 with diagonal entries that are not equal but whose computed difference is below 2^-52: then the block is returned unchanged with the identity rotation, it is not in standard form, and the two numbers reported are the eigenvalues of no real matrix.", "quantifier": "every a, b, c, d in the stated range, in IEEE binary64, through every branch of the routine", "why_tests_cant": "Tests check a few matrices with a tolerance; only a proof covers the cancellation near equal eigenvalues and the extreme magnitudes.", "anchors": ["src/dlanv2.rs: dlanv2"]}
{"id": "C77", "title": "Backward stability of dlahqr on f64", "statement": "On f64, for a full-Schur-form call on a finite Hessenberg block of order nh <= 2000 and Frobenius norm at most 2^970: whenever dlahqr returns, there are an exactly orthogonal Q and a perturbation E, with Frobenius norm at most s*(12000*2^-53*norm + 4*nh*2^-969) for s = nh*((30*max(nh,10)+1)*nh+1), such that T = Q^T (A + E) Q is Hessenberg, is quasi-triangular in the rows and columns after info (all of them if info = 0), and the eigenvalues reported there are those of its diagonal blocks: all are finite, wr is exactly the diagonal of T, wi is zero for 1-by-1 blocks and plus/minus the square root of the negated product of the off-diagonal entries (to 5 units in the last place) for 2-by-2 blocks. If info = 0, the returned h holds T exactly on and below its diagonal and in its 2-by-2 diagonal blocks; each row of z in iloz..ihiz is that row times Q up to an error of norm s*(4640*2^-53*K + 48*2^-1075), K a bound on the norms of the rows; z is unchanged elsewhere.", "quantifier": "every size up to 2000, position of the active block, finite input and number of rounds, both build profiles, with or without z, in IEEE binary64 including rounding, underflow and NaN", "why_tests_cant": "A test can only compare a few spectra with a tolerance; the claim is about the accumulated rounding of an unbounded number of sweeps, and about the overflow and NaN paths a test does not reach.", "anchors": ["src/dlahqr.rs: dlahqr", "src/dlanv2.rs: dlanv2", "src/dlarfg.rs: dlarfg", "src/blas/drot.rs: drot"]}
{"id": "C78", "title": "Backward stability of a dlaqr5 sweep on f64", "statement": "On f64, a dlaqr5 sweep with two finite shifts and without accumulation of the reflectors, on the active block ktop..kbot of a finite Hessenberg matrix A (whose element (ktop+2, ktop) may hold anything, even a NaN) whose Frobenius norm plus the size of the shifts, S, is at most 2^980, whose first subdiagonal element is not zero and whose subdiagonal elements, if the block has order four or more, are so large that their scaled product does not underflow, returns; there is an exactly orthogonal q and a perturbation E with T = q^T (A + E) q Hessenberg such that the returned h holds exactly T, norm of E at most (kbot-ktop)*(7210*2^-53*norm(A) + 2n*2^-969); q is the identity outside the active block, and its column ktop is, to within 32*2^-53*(S+2^-900)^2, a multiple of the first column of the shift polynomial of the active block; h is unchanged elsewhere; z, u, wv and wh are unchanged.", "quantifier": "every size, position of the active block, leading dimension and finite input of the stated size, wantt or not, every kacc22 but 1 and 2, both build profiles, with z transformed or not, in IEEE binary64 including rounding and underflow", "why_tests_cant": "A test can only compare a few sweeps with a tolerance; the claim is about the accumulated rounding of a chase of any length, and about the three tests in the middle of the chase (collapsed bulge, refilled bulge, deflation), whose wrong branch breaks the similarity.", "anchors": ["src/dlaqr5.rs: dlaqr5", "src/dlaqr1.rs: dlaqr1", "src/dlarfg.rs: dlarfg"]}
{"id": "C79", "title": "dlaqr5 treats flat and nested vectors like arrays", "statement": "With flat vectors for all matrices dlaqr5 does exactly what it does with the FortranArrays that hold the same elements in columns of the leading dimension passed with each: it returns, panics and depends on the build profile alike, and the vectors returned hold the elements of the arrays returned there. With accumulation (kacc22 1 or 2), two or three shifts of any value and square nested vectors of suitable orders it returns, on the nested vectors and on the arrays they convert to, and each nested vector returned is square and holds the elements of the array returned there in storage order.", "quantifier": "every size, leading dimension, content (NaN and infinities included), shift and flag; both build profiles; any arithmetic", "why_tests_cant": "The container is converted in and out of the internal array; a test on one shape cannot show that no element is lost, moved or transposed for any other.", "anchors": ["src/dlaqr5.rs: dlaqr5", "src/array/convert.rs: to_fa_2d, From<FortranArray>"]}
{"id": "C80", "title": "Backward stability of an accumulating dlaqr5 sweep on f64", "statement": "On f64, in the setting of C78 but with the reflectors accumulated (kacc22 is 1 or 2), ldz = ldh, work arrays of at least the sizes the mode needs with any contents (NaN included), a dlaqr5 sweep with two finite shifts returns; the returned h holds exactly a Hessenberg T = q^T (A + E) q with q exactly orthogonal, the identity outside the active block, its first column a multiple of the first column of the shift polynomial to within 32*2^-53*(S+2^-900)^2, and norm of E at most (kbot-ktop+1)*(81100*2^-53*norm(A) + 4n*2^-969); if wantz, each row iloz..ihiz of z of norm at most K <= 2^980 is multiplied by that same q with an error of norm at most (kbot-ktop+1)*(29100*2^-53*K + 2^-1067), and the rest of z is unchanged; if not wantz, z is unchanged. So the accumulating mode, unlike the other (C58), transforms z consistently with h.", "quantifier": "every size, position of the active block, leading dimension, work array sizes nv and nh, and finite input of the stated size, wantt or not, wantz or not, both build profiles, in IEEE binary64 including rounding and underflow", "why_tests_cant": "A test can only compare a few sweeps with a tolerance. The claim is about rounding in the accumulated orthogonal factor and in the block products of any number of strips of any width, and about reading none of the garbage left in the work arrays.", "anchors": ["src/dlaqr5.rs: dlaqr5", "src/dlacpy.rs: dlacpy", "src/blas/dgemm.rs: dgemm", "src/dlaset.rs: dlaset"]}
{"id": "C81", "title": "What dlahqr does on an active block of order two", "statement": "In any arithmetic, dlahqr on an active block of order two (rows and columns ilo and ilo+1 of an r-by-c array, ldh = r) never returns if the block counts as already split (its lower left entry s is at most the safe minimum times 2/eps, or at most eps times the sum of the absolute diagonal entries and passes the criterion of Ahues and Tisseur, as computed), and otherwise returns info = 0 with: the block replaced by the output of dlanv2 on it; if the Schur form is wanted, row ilo+1 right of the block rotated by (cs, sn) up to column n, but row ilo rotated in column ilo+2 only and the columns above the block not at all; all other entries of h unchanged; columns ilo and ilo+1 of z rotated in rows iloz..ihiz if wantz, z unchanged otherwise; the eigenvalues from dlanv2 in wr and wi and nothing else changed there. Hence in exact arithmetic, for an isolated block of an n-by-n matrix H and z the identity beforehand, the returned z is orthogonal, and h = z^T H z holds if and only if the rotation leaves alone the two columns above the block and the entries of row ilo from column ilo+3 on.", "quantifier": "every array shape, position of the block, contents (NaN included in the first part), wantt, wantz, number of rounds and build profile; every scalar arithmetic in the first part, exact real arithmetic with block entries up to a quarter of the largest f64 in the second", "why_tests_cant": "A test sees some entries of some matrices; which entries are left unrotated for every size and position, and exactly when the Schur form is right in spite of it, is a universal statement.", "anchors": ["src/dlahqr.rs: dlahqr", "src/dlanv2.rs: dlanv2", "src/blas/drot.rs: drot"]}
{"id": "C82", "title": "What dlaqr5 does to z when it does not accumulate", "statement": "In exact arithmetic one sweep of dlaqr5 with two shifts, wantz and kacc22 neither 1 nor 2 always returns, h being as in C57 with an orthogonal transformation q. Rows iloz..ihiz of z are first multiplied by q as they should be, and then spoilt by two further matrices: by I - t w w^T with w = (1, v2, v3) in columns kbot-1, kbot, kbot+1, where t, v2, v3 are the first three places of the returned v (t, v2 the last, two-element, reflection; v3 left from the step before, or from the caller when the block has order two), and by the same with all three numbers equal to f64::MIN_POSITIVE in columns kbot-3..kbot-1; columns outside z read as MIN_POSITIVE. The other rows of z are unchanged. So a column kbot+1 of z, on which the transformation does not act, is changed unless the last reflection is trivial; and if kbot is the last column of z, that column comes out as if the last reflection had not been applied, up to a multiple of MIN_POSITIVE.", "quantifier": "every n, leading dimension, active block, Hessenberg matrix with entries up to 2^490, pair of shifts, z, wantt and build profile, in exact real arithmetic", "why_tests_cant": "C58 shows one wrong z; which matrix z is multiplied by for every input is a statement about all of them.", "anchors": ["src/dlaqr5.rs: dlaqr5"]}
{"id": "C83", "title": "dlahqr returns the eigenvalues of an active block of order two, in every mode", "statement": "If dlahqr returns on an active block of order two (rows and columns ilo and ilo+1 of an r-by-c array, ldh = r), whether or not the Schur form and z are wanted, info is 0 and elements ilo and ilo+1 of wr and wi are the eigenvalues of the block. In exact arithmetic: they are exactly the two roots of its characteristic polynomial, real or a conjugate pair, if and only if the block is outside the exceptional set of C38. On f64, for finite entries up to 2^1000 and outside the exceptional set of C76: they are finite and exactly the eigenvalues of a matrix each of whose entries is within 1030*2^-53 times the largest entry of the block, and the block of h is replaced by one in exact standard form, similar to one within 900*2^-53. On f64 the call does return if the lower left entry exceeds 2^-969 and is at least 2^-51 times the sum of the absolute diagonal entries.", "quantifier": "every array shape, position of the block, contents, wantt, wantz, number of rounds and build profile; in exact arithmetic every block with entries up to a quarter of the largest f64; on f64 every finite block within the stated bounds", "why_tests_cant": "Tests compare eigenvalues of chosen matrices with a tolerance; a bound on the backward error for all blocks, and that no mode changes the answer, cannot be reached by testing.", "anchors": ["src/dlahqr.rs: dlahqr", "src/dlanv2.rs: dlanv2"]}
{"id": "C84", "title": "The scalar tau of dlarfg on f64 is zero or between one and two", "statement": "On f64, whatever n, alpha, x and the stride, and whatever magnitudes, infinities or NaN they hold: if dlarfg returns a finite tau, then tau is 0 or 1 <= tau <= 2 holds exactly, without any rounding slack. tau can be infinite for finite data: alpha = 1.5*2^1023, x = 2^1022.", "quantifier": "every n, alpha, x, stride, kind of container and build profile", "why_tests_cant": "The bounds are hit with equality and rounding could push tau one unit beyond either end; that it never does, also after rescaling of tiny data, is a statement about all f64 values.", "anchors": ["src/dlarfg.rs: dlarfg", "src/dlapy2.rs: dlapy2"]}
{"id": "C85", "title": "dgemm and dtrmm computed block by block give bitwise the result of one call", "statement": "Under any arithmetic: (1) calling dgemm on some rows of op(A) and some columns of op(B) gives, bit by bit, the entries that one call on the whole matrices gives in that block of C, for all flags, alpha and beta; (2) passing op(B) with the other storage order and the opposite flag does not change a bit; (3) if A is not transposed, splitting the inner dimension into two calls, the second with beta = 1, gives bit by bit the result of a single call, on f64 without any hypothesis on the values; if A is transposed this fails already for three terms; (4) with A on the left a column of dtrmm's result depends on that column of B alone, with A on the right a row on that row alone, bit by bit.", "quantifier": "every size, offset of the block, flag, scalar and content of the matrices, and every scalar arithmetic", "why_tests_cant": "Bitwise agreement under every partition of every product, with rounding, cannot be covered by sampling; a loop that starts its sum differently when beta = 1 would break it only on rare inputs.", "anchors": ["src/blas/dgemm.rs: dgemm", "src/blas/dtrmm.rs: dtrmm"]}
{"id": "C86", "title": "With accumulation dlaqr5 gives h the leading dimension of z", "statement": "That dlaqr5 returns h in the shape it got it is false with accumulation (kacc22 1 or 2) when ldz differs from ldh. Under any arithmetic and for all data, with two or three shifts: an array h comes back with ldz rows whenever kbot >= ktop+3, or wantt and (ktop > 1 or kbot < n); in the remaining cases it keeps its rows. This happens with wantz = false too, when z is not used at all. The values are wrong as well, also for flat vectors: on f64, for a 5-by-5 Hessenberg matrix of trace 11 and ldh = 5, the returned h has trace 11 (within 1e-13) for ldz = 5 and is off by more than 1 for ldz = 6.", "quantifier": "every matrix, shift, flag, container for the other arguments, leading dimension and build profile", "why_tests_cant": "Tests use the same leading dimension for both matrices; which calls are affected is a statement about all sizes and flags.", "anchors": ["src/dlaqr5.rs: dlaqr5", "src/array/convert.rs: to_fa_2d"]}
{"id": "C87", "title": "Nested vectors that are not square come back in another shape", "statement": "That a nested vector passed as an in-out matrix keeps its shape is false unless it is square. Under any arithmetic and for all contents: dlaset, dlacpy, dgemm and dtrmm, given r vectors of length c, work on the r-by-c array storing their concatenation by columns, exactly as if that array had been passed, and hand the elements back as c vectors of length r. So for r different from c the shape passed never comes back. dgemm leaves its matrix alone when m = 0 or n = 0, or when (alpha = 0 or k = 0) and beta = 1. dtrmm with alpha different from 0 reshapes its triangular factor too, which it only reads. On f64 the product of the 2-by-2 identity with a 2-by-3 nested vector is that matrix neither by rows nor by columns.", "quantifier": "every nested vector, size, flag, leading dimension and build profile; for dlacpy and dgemm every container of the other arguments", "why_tests_cant": "Tests pass square nested vectors only; that no call keeps a rectangular shape is a statement about all shapes and contents.", "anchors": ["src/array/convert.rs: From<Vec<Vec<f64>>> / From<FortranArray> for Vec<Vec<f64>>", "src/dlaset.rs: dlaset", "src/dlacpy.rs: dlacpy", "src/blas/dgemm.rs: dgemm", "src/blas/dtrmm.rs: dtrmm"]}
{"id": "C88", "title": "A NaN in a factor reaches the product except where dtrmm meets a zero", "statement": "On f64 and with alpha different from 0. dgemm: entry (i,j) of the result is NaN as soon as row i of op(A) or column j of op(B) holds a NaN, even where the other factor is zero, and also when the old entry is NaN and beta is not 0, or beta is NaN, or alpha is NaN and k is not 0. dtrmm, triangle on the left: a NaN in B(l,j) makes entry (i,j) NaN for every (i,l) in the triangle of op(T); a NaN of the triangle at (i,l) does so with a transpose, and without one only if B(l,j) is not 0. dtrmm, triangle on the right: a NaN of the triangle at (l,j) makes column j NaN; a NaN in B(i,l) makes entry (i,j) NaN if l = j or the element (l,j) of the triangle is not 0. The exceptions are real, under any arithmetic: on the left without a transpose column j of the result does not depend on the elements of the triangle that meet zeros of column j of B, and on the right entry (i,j) does not depend on the entries of row i of B that meet off-diagonal zeros of the triangle.", "quantifier": "every flag, size, container content, scalar (zeros, infinities, NaN), leading dimension and build profile", "why_tests_cant": "Which NaN must survive is a statement about every position of a NaN and all other contents; a test shows single runs.", "anchors": ["src/blas/dgemm.rs: dgemm", "src/blas/dtrmm.rs: dtrmm"]}
{"id": "C89", "title": "A NaN that ties the last two rows to the block makes dlahqr give up without any eigenvalue", "statement": "On f64, for an active block ilo..ihi of order at least three and any modes, say that a NaN joins row k to row k-1 if h(k,k-1) is not tiny (a NaN is not) and h(k,k-1), h(k-1,k-1) or h(k,k) is NaN. If NaNs join row ihi and row ihi-1 to the rows before them, dlahqr neither panics nor runs for ever: the first round of its outer loop uses up all the sweeps it is allowed and it returns, in both build profiles, info = ihi, with wr and wi as the caller passed them and NaN in h(ihi,ihi-1) and h(ihi-1,ihi-2). A single NaN on the diagonal in row ihi-1 is enough if the two subdiagonal elements beside it are not tiny.", "quantifier": "every order, active block, content of the rest of h and z (infinities and NaN included), mode and build profile", "why_tests_cant": "The claim is about every other entry of h and about a run of hundreds of sweeps; a test with one NaN matrix shows one run.", "anchors": ["src/dlahqr.rs: dlahqr"]}
{"id": "C90", "title": "dlahqr with the Schur form wanted depends on the active block only and writes to its rows only, but the fourth diagonal below the main one matters", "statement": "For every scalar arithmetic and arguments of suitable sizes, two calls of dlahqr with the Schur form wanted whose matrices h agree in rows and columns ilo..ihi, on and above the subdiagonal and on the fourth diagonal below the main one, and whose other arguments are equal, either both never end or both return; then wr, wi, z and info are the same and so are the entries of h in rows and columns ilo..ihi down to the fourth diagonal. Whatever h holds elsewhere (NaN included) has no influence on them. A call that returns leaves unchanged every entry of h outside the rows ilo..ihi, left of column ilo, right of column n, or more than four places below the diagonal. The fourth diagonal below the main one does matter (unlike in LAPACK): on f64 a matrix and its copy with a 1 in that place get different wr. Without the Schur form entries above and left of the block are overwritten: on f64 a call for rows 2 to 4 changes entries of row 1 and of column 1.", "quantifier": "every content of h inside and outside the block, every z, wr, wi, active block, order, leading dimension, wantz, and build profile; the two defects are shown on one f64 input each", "why_tests_cant": "Independence of all other entries, for every run of any number of sweeps, is a statement about pairs of inputs; tests compare a few.", "anchors": ["src/dlahqr.rs: dlahqr"]}
{"id": "C91", "title": "dlaqr5 depends on the active block only and leaves the rest of h alone, but the third diagonal below the main one matters", "statement": "For two or three shifts, with or without accumulation, and arguments of suitable sizes, two calls of dlaqr5 whose matrices h agree in rows and columns ktop..kbot, on and above the subdiagonal and on the third diagonal below the main one, and whose other arguments are equal, both return; then z and v are the same and so are the entries of h in rows and columns ktop..kbot down to the third diagonal below the main one. Whatever h holds elsewhere (NaN included) has no influence on them. A call that returns leaves unchanged every entry of h that is neither in that block at most three places below the diagonal nor, if the Schur form is wanted, above the block or to the right of it up to column n. The third diagonal does matter (unlike in LAPACK): on f64 a matrix and its copy with a large number in one such place differ after the sweep in whether the entry in row 2 of column 1 was set to zero.", "quantifier": "every scalar arithmetic (with accumulation: in which zero is equal to zero and not to one), every content of h inside and outside the block, every z, v, shifts, active block, order, leading dimension, wantt, wantz, and build profile; the defect is shown on one f64 pair of inputs", "why_tests_cant": "Independence of all other entries is a statement about pairs of inputs of every size; tests compare a few.", "anchors": ["src/dlaqr5.rs: dlaqr5"]}
{"id": "C92", "title": "An illegal argument of dgemm or dtrmm prints one line naming the routine and the first illegal argument, and ends the process with status 1", "statement": "A call of dgemm (dtrmm) with an illegal argument writes exactly the line \"** On entry to DGEMM  parameter number p had an illegal value\" (DTRMM respectively) to standard output, where p is the position of the first illegal argument, and ends the process with exit status 1. A call with legal arguments writes nothing and never ends the process, whatever else it does. The line determines the routine name and the parameter number: two calls of xerbla that print the same text were given the same name and number. (dgemm on flat vectors: as long as no leading dimension is zero and the vectors are shorter than 2^31, since a flat vector is converted before the arguments are checked.)", "quantifier": "every value of every argument, containers, scalar arithmetic and build profile; every name and number for the text", "why_tests_cant": "The combinations of illegal arguments, and the pairs of names and numbers, are unbounded.", "anchors": ["src/xerbla.rs: xerbla", "src/blas/dgemm.rs: dgemm", "src/blas/dtrmm.rs: dtrmm"]}
{"id": "C93", "title": "What the work arrays of dlaqr5 hold has no influence on h and z, except on z for a block of two rows without accumulation", "statement": "Two calls of dlaqr5 with two or three shifts and arguments of suitable sizes that differ only in what the work arrays v, u, wv and wh hold (NaN included) both return and give the same h and the same z, element by element: with accumulation always, without it if z is not wanted or the active block has at least three rows. Without accumulation, with z wanted and an active block of two rows, z does depend on what v held: on f64 an entry of z stays 0 or becomes less than -1 according to the third element of v.", "quantifier": "every content of the work arrays, every h, z, shifts, active block, order, leading dimensions, wantt, wantz, build profile; any scalar arithmetic (with accumulation: any in which zero equals zero and differs from one, so f64); the exception is shown on one f64 pair of inputs", "why_tests_cant": "No test can run the sweep with every content of four work arrays.", "anchors": ["src/dlaqr5.rs: dlaqr5"]}
{"id": "C94", "title": "Whether the Schur form is wanted does not change what dlaqr5 does to the active block", "statement": "Two calls of dlaqr5 with two or three shifts, with or without accumulation, and with arguments of suitable sizes, that differ only in the flag wantt both return, with the same z and v and, element by element, the same h in rows and columns ktop..kbot down to the third diagonal below the main one. Asking for the Schur form only makes the sweep reach further: above the block and to the right of it the results do differ (shown on an f64 matrix).", "quantifier": "every h, z, v, shifts, active block, order, leading dimensions, wantz, build profile; any scalar arithmetic (with accumulation: in which zero is equal to zero and not to one), f64 with NaN included", "why_tests_cant": "No test can compare the two modes on every matrix; dlahqr, the sister routine, does give different eigenvalues in the two modes (C60).", "anchors": ["src/dlaqr5.rs: dlaqr5"]}
{"id": "C95", "title": "Without scaling dgemm on f64 gives bitwise the same product however the factors are stored", "statement": "For alpha = 1 and beta = 0 on f64, entry (i,j) of the result of dgemm is the sum from left to right, started from zero, of the products of row i of op(A) and column j of op(B), whichever of the flags N, T, C are given. So two calls whose op(A) and op(B) are the same matrices, stored transposed or not and with whatever leading dimensions, return bitwise the same block; and the product of the transposed factors in the other order is bitwise the transposed product. With another alpha the storage matters: 3*(1*1 + 2^-53*1) gives 3 if A is stored transposed and the next larger number otherwise.", "quantifier": "every shape, leading dimension, flag and f64 data, infinities and NaN included", "why_tests_cant": "The four branches of the code loop in different orders; a test compares a few matrices up to a tolerance.", "anchors": ["src/blas/dgemm.rs: dgemm"]}
{"id": "C96", "title": "dgemm on f64 is exact for integers below 2^53", "statement": "If alpha, beta and the entries are integers stored as f64, bounded by P >= 1 in op(A), Q in op(B) and S in C, and |alpha|*k*P*Q + |beta|*S < 2^53, then the result of dgemm is exactly the integer matrix alpha*op(A)*op(B) + beta*C. If beta = 0, nothing is asked of C. Beyond the bound it fails: 2^53*1 + 1*1 gives 2^53.", "quantifier": "every shape, leading dimension, flags and integer matrices within the bound", "why_tests_cant": "Rounding errors could appear in any partial sum; only an argument about all of them excludes it.", "anchors": ["src/blas/dgemm.rs: dgemm"]}
{"id": "C97", "title": "Multiplying by a permutation or selection matrix with dgemm on f64 only moves entries", "statement": "With alpha = 1 and beta = 0 on f64: if row i of op(A) is the unit vector number s(i), for every i, and op(B) is finite, then row i of the result is row s(i) of op(B) without any rounding; the only change possible is -0 to 0. The same holds for columns if the columns of op(B) are unit vectors. In particular the identity and permutations are exact. Infinities spoil it: the identity times (inf, 1) is (inf, NaN).", "quantifier": "every shape, leading dimension, flags, selection s and finite f64 matrix", "why_tests_cant": "Holds for every matrix of numbers of any magnitude, down to subnormal ones; a test tries a few.", "anchors": ["src/blas/dgemm.rs: dgemm"]}
{"id": "C98", "title": "dtrmm on f64 is exact for integers below 2^53", "statement": "If alpha, the entries of the named triangle of A (without the diagonal if it is taken to be one) and those of B are integers stored as f64, bounded by P >= 1 in the triangle and Q >= 1 in B, and s*|alpha|*P*Q < 2^53 where s is the order of the triangular matrix, then dtrmm on arrays or nested vectors replaces B exactly by the integer matrix alpha*op(T)*B or alpha*B*op(T). Outside the named triangle A may hold anything. Beyond the bound it fails: 2^53*1 + 1*1 gives 2^53.", "quantifier": "every shape, leading dimension, flags and integer matrices within the bound", "why_tests_cant": "Rounding errors could appear in any partial sum of eight loop nests; only an argument about all of them excludes it.", "anchors": ["src/blas/dtrmm.rs: dtrmm"]}
{"id": "C99", "title": "On f64, signs do not change dnrm2, and dlarfg follows a change of sign of its whole input", "statement": "Flipping the signs of any entries of x leaves the f64 returned by dnrm2 the same, for every count, increment and length, infinities, NaN and panics included. If dnrm2 of x is not zero, then dlarfg of (-alpha, -x) gives exactly -beta and exactly the same reflector: the same v at the strided positions and the same tau; all roundings agree, also when the input is rescaled. If dnrm2 of x is zero, both calls return their input and tau = 0. Negating alpha alone does change v.", "quantifier": "every f64 alpha and vector (NaN and infinities included), count >= 2, increment >= 1 without i32 overflow", "why_tests_cant": "Equality of all roundings for all inputs, and through the rescaling loop, cannot be sampled.", "anchors": ["src/blas/dnrm2.rs: dnrm2", "src/dlarfg.rs: dlarfg"]}
{"id": "C100", "title": "On f64, dgemm, dtrmm and drot follow a change of sign of their input", "statement": "Negating one of alpha, A, B and also C (unless beta = 0) makes dgemm return the negated entries; negating alpha or B makes dtrmm return the negated entries; negating both vectors makes drot return the negated vectors. The entries are opposite exactly, infinities and NaN included; only a zero may have either sign in both results. Negating both A and B leaves the result of dgemm the same bit for bit.", "quantifier": "every f64 data, shape, flags, leading dimension; dgemm on flat vectors, arrays and nested vectors, dtrmm on arrays and nested vectors", "why_tests_cant": "Equality of all roundings, with all special values and all skipped zero terms, must hold for every input.", "anchors": ["src/blas/dgemm.rs: dgemm", "src/blas/dtrmm.rs: dtrmm", "src/blas/drot.rs: drot"]}
{"id": "C101", "title": "On f64, dlaqr1 follows changes of sign of its matrix and shifts", "statement": "Replacing H by D H D with a diagonal matrix D of signs, or by -D H D with both shifts negated, and optionally both shifts by their complex conjugates, multiplies element i of the vector of dlaqr1 by d_1*d_i, exactly, infinities and NaN included; only a zero may have either sign. Conjugating both shifts alone changes nothing at all, bit for bit, for every argument.", "quantifier": "every f64 matrix, shifts, n = 2 or 3, leading dimension, and every choice of signs", "why_tests_cant": "Equality of all roundings for all inputs cannot be sampled.", "anchors": ["src/dlaqr1.rs: dlaqr1"]}
{"id": "C102", "title": "The complete table of block sizes of ilaenv", "statement": "For every ASCII name that starts with S, D, C or Z the answers of ilaenv for ispec 1, 2, 3 (block size, minimum block size, crossover point) are those of the first row of a table whose pattern fits the beginning of the name: for instance 192 for ?SYTRF names with a 2 as eleventh letter, 64 for other ?SYTRF names, 32 for every real ?OR name but only for 14 complex ?UN names, 1 for ?GETRF and ?POTRF. For a name that starts otherwise (but not with a lower-case letter) all three answers are 1.", "quantifier": "every ASCII name, every n1..n4 such that 16*min(n1,n2) is an i32 value", "why_tests_cant": "Names are arbitrary strings; tests try a few.", "anchors": ["src/ilaenv.rs: ilaenv"]}
{"id": "C103", "title": "On f64, scaling by powers of two is exact, and drot, dgemm, dtrmm and dlapy2 follow it without further rounding error", "statement": "dscal by a power of two multiplies every visited element exactly, and a second call with the inverse power gives the input back bit for bit, provided nothing overflows or underflows. If both vectors of drot are multiplied by 2^k, or the rows of op(A), columns of op(B) and inner index of dgemm (alpha = 1, beta = 0) or dtrmm (alpha = 1; a unit diagonal has to stay 1) by powers of two, or both arguments of dlapy2 by 2^k, then every finite result is multiplied by the corresponding power of two, exactly, provided no product underflows. One subnormal element is enough to break the round trip.", "quantifier": "every finite f64 argument, every exponent, every size, stride and leading dimension, all three storage types for dgemm", "why_tests_cant": "Equality of all roundings for all inputs and exponents cannot be sampled.", "anchors": ["src/blas/dscal.rs: dscal", "src/blas/drot.rs: drot", "src/blas/dgemm.rs: dgemm", "src/blas/dtrmm.rs: dtrmm", "src/dlapy2.rs: dlapy2"]}
{"id": "C104", "title": "On f64, dnrm2 and dlarfg follow a scaling of the vector by a power of two without further rounding error", "statement": "If the vector is multiplied by 2^k and its elements are zero or of a magnitude between 2^-511 and 2^505 before and after, then a finite dnrm2 is multiplied by 2^k exactly. Then dlarfg of the scaled (alpha, x) gives beta multiplied by 2^k exactly, the same tau bit for bit, and the same reflector vector v; so the reflector does not depend on the unit in which the vector is measured. Outside that range the norm need not follow exactly: (0.1, 1.5) scaled by 2^-511 does not.", "quantifier": "every f64 vector in the range, every exponent k, length and positive stride; alpha of magnitude at most 2^1000", "why_tests_cant": "Equality of all roundings for all inputs and exponents cannot be sampled.", "anchors": ["src/blas/dnrm2.rs: dnrm2", "src/dlarfg.rs: dlarfg", "src/dlapy2.rs: dlapy2"]}
{"id": "C105", "title": "On f64, dtrmm from the left and from the right give the same numbers on transposed data", "statement": "With alpha = 1, finite entries in the named triangle of A and finite B, the product op(A)*B computed with side L and the product B^T*op(A)^T computed with side R (same triangle and diag flag, the other transposition flag) hold the same numbers, entry by entry, although all terms are rounded and some may overflow; only a zero may have either sign. It fails for other alpha (0.3 for instance), and for an infinite entry in the triangle, where one side leaves out a term and the other gives NaN.", "quantifier": "every size, triangle, diagonal and transposition flag, leading dimension, finite data", "why_tests_cant": "Equality of all roundings for all inputs cannot be sampled.", "anchors": ["src/blas/dtrmm.rs: dtrmm"]}
{"id": "C106", "title": "On f64, zeros put in between change neither a norm nor a matrix product", "statement": "dnrm2 depends, bit for bit, only on the non-zero elements it visits and on their order: two vectors of whatever lengths and increments with the same non-zero elements have the same norm, and zeros of either sign may stand anywhere. dgemm with alpha = 1 and beta = 0 gives the same numbers (a zero may have either sign) when columns of op(A) and the matching rows of op(B) are put in anywhere, if one of the two is zero and the other one finite. With an infinite counterpart the product becomes NaN.", "quantifier": "every length, increment, vector (NaN and infinities included); every size, transposition flag, leading dimension, matrix and place of the zeros", "why_tests_cant": "The number and the places of the zeros are unbounded, and equality of all roundings cannot be sampled.", "anchors": ["src/blas/dnrm2.rs: dnrm2", "src/blas/dgemm.rs: dgemm"]}
{"id": "C107", "title": "On f64, dtrmm agrees with dgemm on the triangle written out in full, where the order of the sum is the same", "statement": "With alpha = 1 and finite data, dtrmm from the left with op(A) upper triangular, and from the right with op(A) lower triangular, gives the same numbers as dgemm (alpha = 1, beta = 0) applied to the triangular matrix written out with its zeros and, for a unit triangle, its ones; every rounding is the same, overflow included, and only a zero may have either sign. In the other two cases the sum starts at the other end: an example shows results that differ.", "quantifier": "every size, transposition flag of either call, diagonal flag, leading dimension, finite data", "why_tests_cant": "Equality of all roundings of two different routines for all inputs cannot be sampled.", "anchors": ["src/blas/dtrmm.rs: dtrmm", "src/blas/dgemm.rs: dgemm"]}
{"id": "C108", "title": "On f64, products of nonnegative matrices and norms are monotone despite rounding", "statement": "If 0 <= A <= A' and 0 <= B <= B' entry by entry (finite entries), then every entry of the product computed by dgemm (alpha = 1, beta = 0) from op(A) and op(B) is at most the one computed from op(A') and op(B'), also when entries overflow; and so for dtrmm (alpha = 1) with the triangle it reads, from both sides. If A is nonnegative and B <= B' with entries of whatever signs, the same holds wherever both results are finite. If every visited element of x is in magnitude at most the one of y, and all are zero or of a magnitude between 2^-511 and 2^505, then dnrm2(x) <= dnrm2(y), also when the sum overflows.", "quantifier": "every size, transposition flag, leading dimension, increment, and finite data in the stated range", "why_tests_cant": "Rounding could break an inequality on single inputs among astronomically many.", "anchors": ["src/blas/dgemm.rs: dgemm", "src/blas/dnrm2.rs: dnrm2"]}
{"id": "C109", "title": "On f64, dnrm2 is never below the largest element, and exact for one non-zero element", "statement": "If all visited elements are zero or of a magnitude between 2^-511 and 2^505, then the value of dnrm2 is at least the magnitude of each of them, in spite of the rounding of every square, sum and root. If only one visited element v is not zero, then dnrm2 returns exactly |v|, bit for bit. Outside this range it fails: the norm of (5e-324) is 0.", "quantifier": "every length, increment and finite data in the stated range", "why_tests_cant": "The square and its root are both rounded; that the second rounding undoes the first is not visible from samples of 2^64 values.", "anchors": ["src/blas/dnrm2.rs: dnrm2"]}
{"id": "C110", "title": "dlapy2 on f64 is monotone in its smaller argument, but not in its larger one", "statement": "On f64, if |y| <= |y'| <= |x| for finite arguments, then dlapy2(x,y) <= dlapy2(x,y') in spite of all roundings, also when the result overflows, and the same with the arguments exchanged. In particular both are at most |x| * sqrt(2), computed in f64, which is the result for equal magnitudes. But a larger |x| can give a smaller result: dlapy2(1.4062500000000042, 1) < dlapy2(1.406250000000004, 1).", "quantifier": "all finite f64 arguments", "why_tests_cant": "A violation is a difference in the last bit at isolated arguments; samples that are not adjacent floating-point numbers never show one.", "anchors": ["src/dlapy2.rs: dlapy2"]}
{"id": "C111", "title": "Gram matrices computed by dgemm on f64 are exactly symmetric, unless alpha spoils it", "statement": "Let op(B) be the transpose of op(A), for instance the same array with the opposite flag, and C symmetric or beta = 0. If A is given transposed, or alpha = 1, then alpha*op(A)*op(B) + beta*C as computed by dgemm on f64 is symmetric bit for bit. Its diagonal for alpha = 1, beta = 0 and finite A is nonnegative and never NaN. With A not transposed and another alpha the result need not be symmetric: 2.5*A*A^T for the column A = (2.7, 0.6) is not.", "quantifier": "every size, leading dimension, alpha, beta and f64 data, NaN and infinities included (finite data for the diagonal)", "why_tests_cant": "A loss of symmetry is a difference in the last bit of single entries, for some values of alpha only.", "anchors": ["src/blas/dgemm.rs: dgemm"]}
{"id": "C112", "title": "The reflector of dlarfg on f64 has entries at most one and beta dominates the data, without rounding slack", "statement": "On f64, with the elements of x zero or of a magnitude between 2^-511 and 2^505, |alpha| <= 2^1000 and a finite non-zero norm of x: the new leading entry beta of dlarfg satisfies |beta| >= |alpha| and |beta| >= |x_l| for every element, and every element v_l of the reflector vector satisfies |v_l| <= 1, all exactly, although norm, root, reciprocal and product are rounded. The bound one is attained.", "quantifier": "every length, positive increment and f64 data in the stated range", "why_tests_cant": "A rounding error in the reciprocal would push an entry to the next number above one; only a tie to even prevents it.", "anchors": ["src/dlarfg.rs: dlarfg", "src/blas/dnrm2.rs: dnrm2", "src/dlapy2.rs: dlapy2"]}
{"id": "C113", "title": "dscal on f64 keeps a sorted vector sorted, and never moves a magnitude the wrong way", "statement": "On f64 with a finite factor and finite visited elements: a factor >= 0 keeps the order of the visited elements (x_l <= x_k implies y_l <= y_k), a factor <= 0 inverts it; a factor of magnitude at most one increases no magnitude, and one of magnitude at least one decreases none. All this holds exactly, overflow and underflow included.", "quantifier": "every length, positive increment, finite factor and finite data", "why_tests_cant": "Rounding could exchange two neighbouring numbers for single factors among 2^64.", "anchors": ["src/blas/dscal.rs: dscal"]}
{"id": "C114", "title": "Products and rotations on f64 are bounded by the same computation on magnitudes", "statement": "On f64: if |A| <= A' and |B| <= B' entry by entry, all finite, then every entry of the product A*B computed by dgemm (alpha = 1, beta = 0, any transpositions) is at most the corresponding entry of the computed product A'*B' in magnitude, exactly and with no allowance for rounding, whenever that entry is finite; the entry of A*B is then finite too. With any finite alpha and beta and |C| <= C', alpha*A*B + beta*C is bounded in the same way by |alpha|*A'*B' + |beta|*C'. The same holds for dtrmm with alpha = 1 from either side, where only the triangle that is read matters. drot with |c| <= 1 and |s| <= 1 gives pairs both of whose elements are at most the computed sum |x| + |y|, whenever that sum is finite.", "quantifier": "every shape, transposition, triangle, leading dimension, increment and finite data", "why_tests_cant": "Cancellation and rounding could push one of the 2^64 values of a sum past the bound.", "anchors": ["src/blas/dgemm.rs: dgemm", "src/blas/dtrmm.rs: dtrmm", "src/blas/drot.rs: drot"]}
{"id": "C115", "title": "On f64, leaving elements out never increases a norm or a product of nonnegative matrices", "statement": "On f64: if the elements visited by one call of dnrm2 are some of those visited by another call, in the same order, then its result is at most that of the other call, exactly and with no allowance for rounding, provided the elements are zero or between 2^-511 and 2^505. If A consists of some columns of A' and B of the matching rows of B', in the same order, and A' and B' are finite and nonnegative, then every entry of A*B computed by dgemm (alpha = 1, beta = 0, any transpositions) is at most the corresponding entry of A'*B', overflow included.", "quantifier": "every length, increment, shape, transposition, leading dimension, choice of elements, and data in the stated range", "why_tests_cant": "With fewer elements the partial sums are rounded at other places; only an argument over all sums excludes that one rounding outweighs the missing element.", "anchors": ["src/blas/dnrm2.rs: dnrm2", "src/blas/dgemm.rs: dgemm"]}
{"id": "C116", "title": "On f64, dlanv2 leaves what it has returned alone, and its eigenvalues are read off the returned block", "statement": "On f64, for all a, b, c, d including infinities and NaN: if the first element of the block dlanv2 returns is finite, a second call on the returned block gives back the same block and the same eigenvalues, bit for bit, with the rotation cs = 1, sn = 0. In every case the returned real parts are the returned diagonal elements, and the imaginary parts are zero if the returned c is zero, and otherwise exactly opposite. If the diagonal is so large that the first element overflows, a second call may give NaN.", "quantifier": "all f64 values of a, b, c, d", "why_tests_cant": "A second rotation would only be triggered by isolated roundings in one of the branches for real, equal or complex eigenvalues.", "anchors": ["src/dlanv2.rs: dlanv2"]}
{"id": "C117", "title": "On f64, quarter turns by drot and changes of sign by dscal are exact and can be undone", "statement": "On f64, drot with (c, s) one of (1,0), (-1,0), (0,1), (0,-1) replaces every finite pair (x, y) by exactly (c*x + s*y, c*y - s*x), that is, it only exchanges elements and changes signs, and a second call with (c, -s) restores the values of all visited elements (a zero may have changed its sign). dscal by -1 changes the sign of every visited element, zeros and infinities included (NaN stays NaN), leaves all others alone, and a second call gives the input back bit for bit.", "quantifier": "every length, increments, and data (finite data for drot)", "why_tests_cant": "Exactness has to hold for every one of the 2^64 values, including subnormal ones, and for every increment.", "anchors": ["src/blas/drot.rs: drot", "src/blas/dscal.rs: dscal"]}
{"id": "C118", "title": "Called again on its own result, dlahqr on an active block of order two hangs or changes nothing", "statement": "On f64, let dlahqr have returned on an active block of order two of an r-by-c array (ldh = r), with a finite first element of the new block. A second call on the h, wr and wi it returned, with the same ilo and any flags and z of suitable size, either never returns, or returns with info = 0 and the same block, wr and wi, bit for bit. If the eigenvalues were real, so that the element below the diagonal of the new block is zero, the second call never returns: dlahqr must not be called on a block it has already reduced.", "quantifier": "every array shape, position of the block, contents, flags, z, number of rounds and build profile", "why_tests_cant": "A test cannot show that a call never returns, and the equality concerns all roundings of both calls.", "anchors": ["src/dlahqr.rs: dlahqr", "src/dlanv2.rs: dlanv2"]}
{"id": "C119", "title": "dlaqr1 on f64 follows a scaling by a power of two exactly", "statement": "On f64, for n = 2 or 3: multiplying the matrix and both shifts by 2^k multiplies the vector of dlaqr1 by 2^k, without any further rounding error, and all its elements are finite, as long as all the arguments of both calls are zero or between 2^-200 and 2^200 in magnitude. The shifts may be any two complex numbers. A factor of 3 has no such effect.", "quantifier": "every order 2 or 3, integer k, leading dimension, matrix and shifts in the range", "why_tests_cant": "It concerns every rounding of every call; a test compares a few matrices.", "anchors": ["src/dlaqr1.rs: dlaqr1"]}
{"id": "C120", "title": "The direction in which drot and dcopy run, and the order of the vectors of drot, do not matter", "statement": "Negating both increments (non-zero, the elements lie inside the vectors) changes neither the result of drot nor that of dcopy, for any scalar type and so bit for bit on f64. Exchanging the two vectors of drot with their increments, and the sign of s, gives the same two vectors exchanged, bit for bit on f64, whatever the increments (also zero), the lengths of the vectors and the data. Negating one increment only does change the result.", "quantifier": "every count, increments, vectors and rotation", "why_tests_cant": "It concerns all pairs of calls; an implementation that reads an element it has already overwritten agrees on many of them.", "anchors": ["src/blas/drot.rs: drot", "src/blas/dcopy.rs: dcopy"]}
{"id": "C121", "title": "Copying with dlacpy in two parts, again, or back", "statement": "For a block with at least as many rows as columns, dlacpy with 'U' followed by dlacpy with 'L', or the other way round, gives the same destination as one call for the whole block. For every uplo and shape, a second call changes nothing, and copying the result back into the source leaves the source as it was. With more columns than rows the two parts write more than the whole, because 'L' ignores the number of rows.", "quantifier": "every shape, leading dimension, uplo and data, any scalar type", "why_tests_cant": "It concerns all pairs of calls; the existing tests call the routine once.", "anchors": ["src/dlacpy.rs: dlacpy"]}
{"id": "C122", "title": "Of several calls of dlaset for the same part the last one wins", "statement": "On arrays and square nested vectors, dlaset after another dlaset with the same uplo, m and n, whatever the constants of the first call, gives the result of the second call alone; in particular repeating a call changes nothing. A call for the other part does leave traces, since each part keeps its off-diagonal constant.", "quantifier": "every shape, uplo, constants and contents, any scalar type", "why_tests_cant": "It concerns all pairs of calls and constants, NaN included.", "anchors": ["src/dlaset.rs: dlaset"]}
{"id": "C123", "title": "The vector routines see the elements in storage order, not the shape", "statement": "dnrm2, dscal, dcopy, drot and dlarfg give on an array exactly what they give on the flat vector of its elements in storage order: for every n and increment, in range or not, both return or both fail in the same way, the results hold the same elements, and the array keeps its shape. A nested vector, even a ragged one, as the argument of dnrm2 or the source of dcopy counts as the concatenation of its vectors. As the in-out argument of dscal, dcopy or drot, r vectors of length c give the elements of that concatenation as well, in r vectors of length c or in c of length r.", "quantifier": "every n, increments, contents and shape, both build profiles, any scalar type", "why_tests_cant": "It compares containers over all lengths, strides and failing calls; no sample of calls covers them.", "anchors": ["src/blas/dnrm2.rs: dnrm2", "src/blas/dscal.rs: dscal", "src/blas/dcopy.rs: dcopy", "src/blas/drot.rs: drot", "src/dlarfg.rs: dlarfg", "src/array/convert.rs: ToFortranArray"]}
