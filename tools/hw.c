/* Results of the floating-point unit of this machine in all four rounding directions, as input for mkhw.py.
   gcc -O0 -frounding-math hw.c -lm */
#include <fenv.h>
#include <math.h>
#include <stdint.h>
#include <stdio.h>
#include <string.h>
#include <float.h>

static uint64_t seed = 88172645463325252ull;
static uint64_t rnd64(void) { seed ^= seed << 13; seed ^= seed >> 7; seed ^= seed << 17; return seed; }

static const int modes[4] = { FE_TONEAREST, FE_DOWNWARD, FE_UPWARD, FE_TOWARDZERO };

/* value as mantissa and exponent; (0,2) is NaN, (0,1) is -0, (+-1,99999) are the infinities */
static void out(long double x) {
  if (isnan(x)) printf("0 2 ");
  else if (isinf(x)) printf("%d 99999 ", x > 0 ? 1 : -1);
  else if (x == 0) printf("0 %d ", signbit(x) ? 1 : 0);
  else {
    int e;
    long double m = frexpl(fabsl(x), &e);
    uint64_t n = (uint64_t)ldexpl(m, 64);
    e -= 64;
    while (!(n & 1)) { n >>= 1; ++e; }
    printf("%s%llu %d ", x < 0 ? "-" : "", (unsigned long long)n, e);
  }
}

/* random numbers, many of them near the limits of the format */
#define GEN(T, NAME, P, MINE, MAXE, MX, MIN, DMIN) \
static T NAME(void) { \
  static const T special[] = { 0, -0.0, 1, -1, INFINITY, -INFINITY, NAN, MX, -MX, MIN, -MIN, DMIN, -DMIN, 0.5, 1.5, 2.5, -2.5, 3 }; \
  uint64_t k = rnd64() % 8; \
  if (k == 0) return special[rnd64() % (sizeof special / sizeof *special)]; \
  T m = 0; \
  uint64_t bits = rnd64() >> (64 - P); \
  if (k == 1) bits >>= rnd64() % P; \
  if (k == 2) bits = ~(uint64_t)0 >> (64 - P); \
  m = (T)bits; \
  int e; \
  if (k < 5) e = (int)(rnd64() % 12) - P - 4; \
  else if (k == 5) e = MINE - (int)(rnd64() % 4); \
  else if (k == 6) e = MAXE - (int)(rnd64() % 4); \
  else e = (MINE - MAXE) / 2 + (int)(rnd64() % 8) - 4 + MAXE; \
  int old = fegetround(); fesetround(FE_TOWARDZERO); \
  T r = (T)ldexpl((long double)m, e); \
  fesetround(old); \
  return rnd64() & 1 ? -r : r; }

GEN(float, genF, 24, -149, 104, FLT_MAX, FLT_MIN, FLT_TRUE_MIN)
GEN(double, genD, 53, -1074, 971, DBL_MAX, DBL_MIN, DBL_TRUE_MIN)
GEN(long double, genL, 64, -16445, 16320, LDBL_MAX, LDBL_MIN, LDBL_TRUE_MIN)

#define RUN(T, TAG, GENF, SQRT, RINT, FLOOR, CEIL) \
static void run##TAG(int n) { \
  for (int md = 0; md < 4; ++md) for (int op = 0; op < 11; ++op) for (int i = 0; i < n; ++i) { \
    volatile T a = GENF(), b = GENF(), r = 0; \
    fesetround(modes[md]); \
    switch (op) { \
      case 0: r = a + b; break; case 1: r = a - b; break; case 2: r = a * b; break; case 3: r = a / b; break; \
      case 4: r = SQRT(a); break; case 5: r = RINT(a); break; case 6: r = FLOOR(a); break; case 7: r = CEIL(a); break; \
      case 8: r = a < b; break; case 9: r = a <= b; break; case 10: r = a == b; break; } \
    fesetround(FE_TONEAREST); \
    printf(#TAG " %d %d ", md, op); out(a); out(b); out(r); printf("\n"); } }
RUN(float, F, genF, sqrtf, rintf, floorf, ceilf)
RUN(double, D, genD, sqrt, rint, floor, ceil)
RUN(long double, L, genL, sqrtl, rintl, floorl, ceill)

int main(void) {
  runF(5); runD(5); runL(5);
  for (int md = 0; md < 4; ++md) for (int i = 0; i < 6; ++i) {
    volatile double d = genD(); volatile long double l = genL(); volatile int n = (int)rnd64(); volatile int64_t k = (int64_t)rnd64();
    volatile float f1, f2; volatile double d1, d2;
    if (i % 3) d = i % 3 == 1 ? (double)genF() + ldexp((double)genF(), -26) : d;
    fesetround(modes[md]);
    f1 = (float)d; d1 = (double)l; f2 = (float)n; d2 = (double)k;
    fesetround(FE_TONEAREST);
    printf("CF %d 0 ", md); out(d); out(0); out(f1); printf("\n");
    printf("CD %d 0 ", md); out(l); out(0); out(d1); printf("\n");
    printf("IF %d 0 ", md); printf("%d 0 ", n); out(0); out(f2); printf("\n");
    printf("ID %d 0 ", md); printf("%lld 0 ", (long long)k); out(0); out(d2); printf("\n");
  }
}
