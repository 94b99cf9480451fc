/-!
# Power tables

Model of `/repo/src/power_table.rs`; every table is copied entry by entry (generated by a script
that only strips comments).  A Rust array is a `List Int`/`List Nat`; indexing is bounds-checked
by the callers (`idx`).
-/

namespace Fixnum

namespace PowerTable

/-- `static i128`, `/repo/src/power_table.rs:28-160` (129 entries). -/
def i128 : List Int := [
  0, 100000000000000000000000000000000000000, 100000000000000000000000000000000000000,
  100000000000000000000000000000000000000, 100000000000000000000000000000000000000,
  10000000000000000000000000000000000000, 10000000000000000000000000000000000000,
  10000000000000000000000000000000000000, 1000000000000000000000000000000000000,
  1000000000000000000000000000000000000, 1000000000000000000000000000000000000,
  100000000000000000000000000000000000, 100000000000000000000000000000000000,
  100000000000000000000000000000000000, 100000000000000000000000000000000000,
  10000000000000000000000000000000000, 10000000000000000000000000000000000,
  10000000000000000000000000000000000, 1000000000000000000000000000000000,
  1000000000000000000000000000000000, 1000000000000000000000000000000000,
  100000000000000000000000000000000, 100000000000000000000000000000000,
  100000000000000000000000000000000, 100000000000000000000000000000000,
  10000000000000000000000000000000, 10000000000000000000000000000000,
  10000000000000000000000000000000, 1000000000000000000000000000000,
  1000000000000000000000000000000, 1000000000000000000000000000000,
  100000000000000000000000000000, 100000000000000000000000000000,
  100000000000000000000000000000, 10000000000000000000000000000, 10000000000000000000000000000,
  10000000000000000000000000000, 10000000000000000000000000000, 1000000000000000000000000000,
  1000000000000000000000000000, 1000000000000000000000000000, 100000000000000000000000000,
  100000000000000000000000000, 100000000000000000000000000, 10000000000000000000000000,
  10000000000000000000000000, 10000000000000000000000000, 10000000000000000000000000,
  1000000000000000000000000, 1000000000000000000000000, 1000000000000000000000000,
  100000000000000000000000, 100000000000000000000000, 100000000000000000000000,
  10000000000000000000000, 10000000000000000000000, 10000000000000000000000,
  10000000000000000000000, 1000000000000000000000, 1000000000000000000000,
  1000000000000000000000, 100000000000000000000, 100000000000000000000, 100000000000000000000,
  10000000000000000000, 10000000000000000000, 10000000000000000000, 10000000000000000000,
  1000000000000000000, 1000000000000000000, 1000000000000000000, 100000000000000000,
  100000000000000000, 100000000000000000, 10000000000000000, 10000000000000000,
  10000000000000000, 10000000000000000, 1000000000000000, 1000000000000000, 1000000000000000,
  100000000000000, 100000000000000, 100000000000000, 10000000000000, 10000000000000,
  10000000000000, 10000000000000, 1000000000000, 1000000000000, 1000000000000, 100000000000,
  100000000000, 100000000000, 10000000000, 10000000000, 10000000000, 10000000000, 1000000000,
  1000000000, 1000000000, 100000000, 100000000, 100000000, 10000000, 10000000, 10000000,
  10000000, 1000000, 1000000, 1000000, 100000, 100000, 100000, 10000, 10000, 10000, 10000, 1000,
  1000, 1000, 100, 100, 100, 10, 10, 10, 1, 1]

/-- `static i64`, `/repo/src/power_table.rs:167-235` (65 entries). -/
def i64 : List Int := [
  0, 0, 0, 0, 1000000000000000000, 1000000000000000000, 1000000000000000000, 100000000000000000,
  100000000000000000, 100000000000000000, 10000000000000000, 10000000000000000,
  10000000000000000, 10000000000000000, 1000000000000000, 1000000000000000, 1000000000000000,
  100000000000000, 100000000000000, 100000000000000, 10000000000000, 10000000000000,
  10000000000000, 10000000000000, 1000000000000, 1000000000000, 1000000000000, 100000000000,
  100000000000, 100000000000, 10000000000, 10000000000, 10000000000, 10000000000, 1000000000,
  1000000000, 1000000000, 100000000, 100000000, 100000000, 10000000, 10000000, 10000000,
  10000000, 1000000, 1000000, 1000000, 100000, 100000, 100000, 10000, 10000, 10000, 10000, 1000,
  1000, 1000, 100, 100, 100, 10, 10, 10, 1, 1]

/-- `static i32`, `/repo/src/power_table.rs:242-278` (33 entries). -/
def i32 : List Int := [
  0, 0, 1000000000, 1000000000, 1000000000, 100000000, 100000000, 100000000, 10000000, 10000000,
  10000000, 10000000, 1000000, 1000000, 1000000, 100000, 100000, 100000, 10000, 10000, 10000,
  10000, 1000, 1000, 1000, 100, 100, 100, 10, 10, 10, 1, 1]

/-- `static i16`, `/repo/src/power_table.rs:285-305` (17 entries). -/
def i16 : List Int := [
  0, 0, 10000, 10000, 10000, 10000, 1000, 1000, 1000, 100, 100, 100, 10, 10, 10, 1, 1]

/-- `NEXT_EXPONENT_10`, `/repo/src/power_table.rs:327-459` (129 entries). -/
def nextExponent10 : List Int := [
  39, 38, 38, 38, 38, 37, 37, 37, 36, 36, 36, 35, 35, 35, 35, 34, 34, 34, 33, 33, 33, 32, 32,
  32, 32, 31, 31, 31, 30, 30, 30, 29, 29, 29, 28, 28, 28, 28, 27, 27, 27, 26, 26, 26, 25, 25,
  25, 25, 24, 24, 24, 23, 23, 23, 22, 22, 22, 22, 21, 21, 21, 20, 20, 20, 19, 19, 19, 19, 18,
  18, 18, 17, 17, 17, 16, 16, 16, 16, 15, 15, 15, 14, 14, 14, 13, 13, 13, 13, 12, 12, 12, 11,
  11, 11, 10, 10, 10, 10, 9, 9, 9, 8, 8, 8, 7, 7, 7, 7, 6, 6, 6, 5, 5, 5, 4, 4, 4, 4, 3, 3, 3,
  2, 2, 2, 1, 1, 1, 0, 0]

/-- `MAX_EXPONENT_5`, `/repo/src/power_table.rs:475-606` (128 entries). -/
def maxExponent5 : List Int := [
  0, 0, 0, 1, 1, 2, 2, 3, 3, 3, 4, 4, 5, 5, 6, 6, 6, 7, 7, 8, 8, 9, 9, 9, 10, 10, 11, 11, 12,
  12, 12, 13, 13, 14, 14, 15, 15, 15, 16, 16, 17, 17, 18, 18, 18, 19, 19, 20, 20, 21, 21, 21,
  22, 22, 23, 23, 24, 24, 24, 25, 25, 26, 26, 27, 27, 27, 28, 28, 29, 29, 30, 30, 31, 31, 31,
  32, 32, 33, 33, 34, 34, 34, 35, 35, 36, 36, 37, 37, 37, 38, 38, 39, 39, 40, 40, 40, 41, 41,
  42, 42, 43, 43, 43, 44, 44, 45, 45, 46, 46, 46, 47, 47, 48, 48, 49, 49, 49, 50, 50, 51, 51,
  52, 52, 52, 53, 53, 54, 54]

/-- `POWERS_OF_10`, `/repo/src/power_table.rs:621-663` (39 entries). -/
def powersOf10 : List (Nat × Nat) := [
  (                                      1, 0), (                                     10, 4),
  (                                    100, 44), (                                   1000, 444),
  (                                  10000, 4444), (                                 100000,
  44444), (                                1000000, 444444),
  (                               10000000, 4444444), (                              100000000,
  44444444), (                             1000000000, 444444444),
  (                            10000000000, 4444444444),
  (                           100000000000, 44444444444),
  (                          1000000000000, 444444444444),
  (                         10000000000000, 4444444444444),
  (                        100000000000000, 44444444444444),
  (                       1000000000000000, 444444444444444),
  (                      10000000000000000, 4444444444444444),
  (                     100000000000000000, 44444444444444444),
  (                    1000000000000000000, 444444444444444444),
  (                   10000000000000000000, 4444444444444444444),
  (                  100000000000000000000, 44444444444444444444),
  (                 1000000000000000000000, 444444444444444444444),
  (                10000000000000000000000, 4444444444444444444444),
  (               100000000000000000000000, 44444444444444444444444),
  (              1000000000000000000000000, 444444444444444444444444),
  (             10000000000000000000000000, 4444444444444444444444444),
  (            100000000000000000000000000, 44444444444444444444444444),
  (           1000000000000000000000000000, 444444444444444444444444444),
  (          10000000000000000000000000000, 4444444444444444444444444444),
  (         100000000000000000000000000000, 44444444444444444444444444444),
  (        1000000000000000000000000000000, 444444444444444444444444444444),
  (       10000000000000000000000000000000, 4444444444444444444444444444444),
  (      100000000000000000000000000000000, 44444444444444444444444444444444),
  (     1000000000000000000000000000000000, 444444444444444444444444444444444),
  (    10000000000000000000000000000000000, 4444444444444444444444444444444444),
  (   100000000000000000000000000000000000, 44444444444444444444444444444444444),
  (  1000000000000000000000000000000000000, 444444444444444444444444444444444444),
  ( 10000000000000000000000000000000000000, 4444444444444444444444444444444444444),
  (100000000000000000000000000000000000000, 44444444444444444444444444444444444444)]

/-- `POWERS_OF_5`, `/repo/src/power_table.rs:674-733` (56 entries). -/
def powersOf5 : List Nat := [
  1, 5, 25, 125, 625, 3125, 15625, 78125, 390625, 1953125, 9765625, 48828125, 244140625,
  1220703125, 6103515625, 30517578125, 152587890625, 762939453125, 3814697265625,
  19073486328125, 95367431640625, 476837158203125, 2384185791015625, 11920928955078125,
  59604644775390625, 298023223876953125, 1490116119384765625, 7450580596923828125,
  37252902984619140625, 186264514923095703125, 931322574615478515625, 4656612873077392578125,
  23283064365386962890625, 116415321826934814453125, 582076609134674072265625,
  2910383045673370361328125, 14551915228366851806640625, 72759576141834259033203125,
  363797880709171295166015625, 1818989403545856475830078125, 9094947017729282379150390625,
  45474735088646411895751953125, 227373675443232059478759765625,
  1136868377216160297393798828125, 5684341886080801486968994140625,
  28421709430404007434844970703125, 142108547152020037174224853515625,
  710542735760100185871124267578125, 3552713678800500929355621337890625,
  17763568394002504646778106689453125, 88817841970012523233890533447265625,
  444089209850062616169452667236328125, 2220446049250313080847263336181640625,
  11102230246251565404236316680908203125, 55511151231257827021181583404541015625,
  277555756156289135105907917022705078125]

end PowerTable

end Fixnum
