/-!
# The bytes of the built-in wavetable (C270)

Generated by tools/gen_sinewave.py.
-/
namespace Verif.Wavetable.Sine

/-- surge-wavetable/src/initial.rs 3-133 `BASIC_SINE_WAVE`. -/
def bytes : List Nat := [
  118, 97, 119, 116, 64, 0, 0, 0, 16, 0, 4, 0, 0, 0, 70, 6, 124, 12, 148, 18, 126, 24, 43, 30, 142, 35, 154, 40, 65, 45, 121, 49,
  55, 53, 113, 56, 33, 59, 63, 61, 197, 62, 177, 63, 0, 64, 177, 63, 197, 62, 63, 61, 33, 59, 113, 56, 55, 53, 121, 49, 65, 45, 154, 40,
  142, 35, 43, 30, 126, 24, 148, 18, 124, 12, 70, 6, 0, 0, 186, 249, 132, 243, 108, 237, 130, 231, 213, 225, 114, 220, 102, 215, 191, 210, 135, 206,
  201, 202, 143, 199, 223, 196, 193, 194, 59, 193, 79, 192, 0, 192, 79, 192, 59, 193, 193, 194, 223, 196, 143, 199, 201, 202, 135, 206, 191, 210, 102, 215,
  114, 220, 213, 225, 130, 231, 108, 237, 132, 243, 186, 249, 0, 0, 124, 12, 126, 24, 142, 35, 65, 45, 55, 53, 33, 59, 197, 62, 0, 64, 197, 62,
  33, 59, 55, 53, 65, 45, 142, 35, 126, 24, 124, 12, 0, 0, 132, 243, 130, 231, 114, 220, 191, 210, 201, 202, 223, 196, 59, 193, 0, 192, 59, 193,
  223, 196, 201, 202, 191, 210, 114, 220, 130, 231, 132, 243, 0, 0, 124, 12, 126, 24, 142, 35, 65, 45, 55, 53, 33, 59, 197, 62, 0, 64, 197, 62,
  33, 59, 55, 53, 65, 45, 142, 35, 126, 24, 124, 12, 0, 0, 132, 243, 130, 231, 114, 220, 191, 210, 201, 202, 223, 196, 59, 193, 0, 192, 59, 193,
  223, 196, 201, 202, 191, 210, 114, 220, 130, 231, 132, 243, 0, 0, 148, 18, 142, 35, 121, 49, 33, 59, 177, 63, 197, 62, 113, 56, 65, 45, 43, 30,
  124, 12, 186, 249, 130, 231, 102, 215, 201, 202, 193, 194, 0, 192, 193, 194, 201, 202, 102, 215, 130, 231, 186, 249, 124, 12, 43, 30, 65, 45, 113, 56,
  197, 62, 177, 63, 33, 59, 121, 49, 142, 35, 148, 18, 0, 0, 108, 237, 114, 220, 135, 206, 223, 196, 79, 192, 59, 193, 143, 199, 191, 210, 213, 225,
  132, 243, 70, 6, 126, 24, 154, 40, 55, 53, 63, 61, 0, 64, 63, 61, 55, 53, 154, 40, 126, 24, 70, 6, 132, 243, 213, 225, 191, 210, 143, 199,
  59, 193, 79, 192, 223, 196, 135, 206, 114, 220, 108, 237, 0, 0, 126, 24, 65, 45, 33, 59, 0, 64, 33, 59, 65, 45, 126, 24, 0, 0, 130, 231,
  191, 210, 223, 196, 0, 192, 223, 196, 191, 210, 130, 231, 0, 0, 126, 24, 65, 45, 33, 59, 0, 64, 33, 59, 65, 45, 126, 24, 0, 0, 130, 231,
  191, 210, 223, 196, 0, 192, 223, 196, 191, 210, 130, 231, 0, 0, 126, 24, 65, 45, 33, 59, 0, 64, 33, 59, 65, 45, 126, 24, 0, 0, 130, 231,
  191, 210, 223, 196, 0, 192, 223, 196, 191, 210, 130, 231, 0, 0, 126, 24, 65, 45, 33, 59, 0, 64, 33, 59, 65, 45, 126, 24, 0, 0, 130, 231,
  191, 210, 223, 196, 0, 192, 223, 196, 191, 210, 130, 231, 0, 0, 43, 30, 55, 53, 177, 63, 33, 59, 154, 40, 124, 12, 108, 237, 191, 210, 193, 194,
  59, 193, 135, 206, 130, 231, 70, 6, 142, 35, 113, 56, 0, 64, 113, 56, 142, 35, 70, 6, 130, 231, 135, 206, 59, 193, 193, 194, 191, 210, 108, 237,
  124, 12, 154, 40, 33, 59, 177, 63, 55, 53, 43, 30, 0, 0, 213, 225, 201, 202, 79, 192, 223, 196, 102, 215, 132, 243, 148, 18, 65, 45, 63, 61,
  197, 62, 121, 49, 126, 24, 186, 249, 114, 220, 143, 199, 0, 192, 143, 199, 114, 220, 186, 249, 126, 24, 121, 49, 197, 62, 63, 61, 65, 45, 148, 18,
  132, 243, 102, 215, 223, 196, 79, 192, 201, 202, 213, 225, 0, 0, 142, 35, 33, 59, 197, 62, 65, 45, 124, 12, 130, 231, 201, 202, 0, 192, 201, 202,
  130, 231, 124, 12, 65, 45, 197, 62, 33, 59, 142, 35, 0, 0, 114, 220, 223, 196, 59, 193, 191, 210, 132, 243, 126, 24, 55, 53, 0, 64, 55, 53,
  126, 24, 132, 243, 191, 210, 59, 193, 223, 196, 114, 220, 0, 0, 142, 35, 33, 59, 197, 62, 65, 45, 124, 12, 130, 231, 201, 202, 0, 192, 201, 202,
  130, 231, 124, 12, 65, 45, 197, 62, 33, 59, 142, 35, 0, 0, 114, 220, 223, 196, 59, 193, 191, 210, 132, 243, 126, 24, 55, 53, 0, 64, 55, 53,
  126, 24, 132, 243, 191, 210, 59, 193, 223, 196, 114, 220, 0, 0, 154, 40, 197, 62, 113, 56, 126, 24, 108, 237, 201, 202, 79, 192, 191, 210, 186, 249,
  142, 35, 63, 61, 33, 59, 43, 30, 132, 243, 135, 206, 0, 192, 135, 206, 132, 243, 43, 30, 33, 59, 63, 61, 142, 35, 186, 249, 191, 210, 79, 192,
  201, 202, 108, 237, 126, 24, 113, 56, 197, 62, 154, 40, 0, 0, 102, 215, 59, 193, 143, 199, 130, 231, 148, 18, 55, 53, 177, 63, 65, 45, 70, 6,
  114, 220, 193, 194, 223, 196, 213, 225, 124, 12, 121, 49, 0, 64, 121, 49, 124, 12, 213, 225, 223, 196, 193, 194, 114, 220, 70, 6, 65, 45, 177, 63,
  55, 53, 148, 18, 130, 231, 143, 199, 59, 193, 102, 215, 0, 0, 65, 45, 0, 64, 65, 45, 0, 0, 191, 210, 0, 192, 191, 210, 0, 0, 65, 45,
  0, 64, 65, 45, 0, 0, 191, 210, 0, 192, 191, 210, 0, 0, 65, 45, 0, 64, 65, 45, 0, 0, 191, 210, 0, 192, 191, 210, 0, 0, 65, 45,
  0, 64, 65, 45, 0, 0, 191, 210, 0, 192, 191, 210, 0, 0, 65, 45, 0, 64, 65, 45, 0, 0, 191, 210, 0, 192, 191, 210, 0, 0, 65, 45,
  0, 64, 65, 45, 0, 0, 191, 210, 0, 192, 191, 210, 0, 0, 65, 45, 0, 64, 65, 45, 0, 0, 191, 210, 0, 192, 191, 210, 0, 0, 65, 45,
  0, 64, 65, 45, 0, 0, 191, 210, 0, 192, 191, 210, 0, 0, 121, 49, 197, 62, 43, 30, 130, 231, 193, 194, 201, 202, 186, 249, 65, 45, 177, 63,
  142, 35, 108, 237, 223, 196, 143, 199, 132, 243, 154, 40, 0, 64, 154, 40, 132, 243, 143, 199, 223, 196, 108, 237, 142, 35, 177, 63, 65, 45, 186, 249,
  201, 202, 193, 194, 130, 231, 43, 30, 197, 62, 121, 49, 0, 0, 135, 206, 59, 193, 213, 225, 126, 24, 63, 61, 55, 53, 70, 6, 191, 210, 79, 192,
  114, 220, 148, 18, 33, 59, 113, 56, 124, 12, 102, 215, 0, 192, 102, 215, 124, 12, 113, 56, 33, 59, 148, 18, 114, 220, 79, 192, 191, 210, 70, 6,
  55, 53, 63, 61, 126, 24, 213, 225, 59, 193, 135, 206, 0, 0, 55, 53, 33, 59, 124, 12, 191, 210, 59, 193, 130, 231, 142, 35, 0, 64, 142, 35,
  130, 231, 59, 193, 191, 210, 124, 12, 33, 59, 55, 53, 0, 0, 201, 202, 223, 196, 132, 243, 65, 45, 197, 62, 126, 24, 114, 220, 0, 192, 114, 220,
  126, 24, 197, 62, 65, 45, 132, 243, 223, 196, 201, 202, 0, 0, 55, 53, 33, 59, 124, 12, 191, 210, 59, 193, 130, 231, 142, 35, 0, 64, 142, 35,
  130, 231, 59, 193, 191, 210, 124, 12, 33, 59, 55, 53, 0, 0, 201, 202, 223, 196, 132, 243, 65, 45, 197, 62, 126, 24, 114, 220, 0, 192, 114, 220,
  126, 24, 197, 62, 65, 45, 132, 243, 223, 196, 201, 202, 0, 0, 113, 56, 55, 53, 186, 249, 223, 196, 135, 206, 124, 12, 63, 61, 65, 45, 108, 237,
  59, 193, 102, 215, 126, 24, 177, 63, 142, 35, 213, 225, 0, 192, 213, 225, 142, 35, 177, 63, 126, 24, 102, 215, 59, 193, 108, 237, 65, 45, 63, 61,
  124, 12, 135, 206, 223, 196, 186, 249, 55, 53, 113, 56, 0, 0, 143, 199, 201, 202, 70, 6, 33, 59, 121, 49, 132, 243, 193, 194, 191, 210, 148, 18,
  197, 62, 154, 40, 130, 231, 79, 192, 114, 220, 43, 30, 0, 64, 43, 30, 114, 220, 79, 192, 130, 231, 154, 40, 197, 62, 148, 18, 191, 210, 193, 194,
  132, 243, 121, 49, 33, 59, 70, 6, 201, 202, 143, 199, 0, 0, 33, 59, 65, 45, 130, 231, 0, 192, 130, 231, 65, 45, 33, 59, 0, 0, 223, 196,
  191, 210, 126, 24, 0, 64, 126, 24, 191, 210, 223, 196, 0, 0, 33, 59, 65, 45, 130, 231, 0, 192, 130, 231, 65, 45, 33, 59, 0, 0, 223, 196,
  191, 210, 126, 24, 0, 64, 126, 24, 191, 210, 223, 196, 0, 0, 33, 59, 65, 45, 130, 231, 0, 192, 130, 231, 65, 45, 33, 59, 0, 0, 223, 196,
  191, 210, 126, 24, 0, 64, 126, 24, 191, 210, 223, 196, 0, 0, 33, 59, 65, 45, 130, 231, 0, 192, 130, 231, 65, 45, 33, 59, 0, 0, 223, 196,
  191, 210, 126, 24, 0, 64, 126, 24, 191, 210, 223, 196, 0, 0, 63, 61, 142, 35, 102, 215, 223, 196, 70, 6, 197, 62, 43, 30, 191, 210, 143, 199,
  124, 12, 177, 63, 126, 24, 135, 206, 201, 202, 148, 18, 0, 64, 148, 18, 201, 202, 135, 206, 126, 24, 177, 63, 124, 12, 143, 199, 191, 210, 43, 30,
  197, 62, 70, 6, 223, 196, 102, 215, 142, 35, 63, 61, 0, 0, 193, 194, 114, 220, 154, 40, 33, 59, 186, 249, 59, 193, 213, 225, 65, 45, 113, 56,
  132, 243, 79, 192, 130, 231, 121, 49, 55, 53, 108, 237, 0, 192, 108, 237, 55, 53, 121, 49, 130, 231, 79, 192, 132, 243, 113, 56, 65, 45, 213, 225,
  59, 193, 186, 249, 33, 59, 154, 40, 114, 220, 193, 194, 0, 0, 197, 62, 126, 24, 201, 202, 191, 210, 142, 35, 33, 59, 132, 243, 0, 192, 132, 243,
  33, 59, 142, 35, 191, 210, 201, 202, 126, 24, 197, 62, 0, 0, 59, 193, 130, 231, 55, 53, 65, 45, 114, 220, 223, 196, 124, 12, 0, 64, 124, 12,
  223, 196, 114, 220, 65, 45, 55, 53, 130, 231, 59, 193, 0, 0, 197, 62, 126, 24, 201, 202, 191, 210, 142, 35, 33, 59, 132, 243, 0, 192, 132, 243,
  33, 59, 142, 35, 191, 210, 201, 202, 126, 24, 197, 62, 0, 0, 59, 193, 130, 231, 55, 53, 65, 45, 114, 220, 223, 196, 124, 12, 0, 64, 124, 12,
  223, 196, 114, 220, 65, 45, 55, 53, 130, 231, 59, 193, 0, 0, 177, 63, 124, 12, 193, 194, 130, 231, 113, 56, 142, 35, 135, 206, 191, 210, 154, 40,
  55, 53, 213, 225, 223, 196, 148, 18, 197, 62, 186, 249, 0, 192, 186, 249, 197, 62, 148, 18, 223, 196, 213, 225, 55, 53, 154, 40, 191, 210, 135, 206,
  142, 35, 113, 56, 130, 231, 193, 194, 124, 12, 177, 63, 0, 0, 79, 192, 132, 243, 63, 61, 126, 24, 143, 199, 114, 220, 121, 49, 65, 45, 102, 215,
  201, 202, 43, 30, 33, 59, 108, 237, 59, 193, 70, 6, 0, 64, 70, 6, 59, 193, 108, 237, 33, 59, 43, 30, 201, 202, 102, 215, 65, 45, 121, 49,
  114, 220, 143, 199, 126, 24, 63, 61, 132, 243, 79, 192, 0, 0, 0, 64, 0, 0, 0, 192, 0, 0, 0, 64, 0, 0, 0, 192, 0, 0, 0, 64,
  0, 0, 0, 192, 0, 0, 0, 64, 0, 0, 0, 192, 0, 0, 0, 64, 0, 0, 0, 192, 0, 0, 0, 64, 0, 0, 0, 192, 0, 0, 0, 64,
  0, 0, 0, 192, 0, 0, 0, 64, 0, 0, 0, 192, 0, 0, 0, 64, 0, 0, 0, 192, 0, 0, 0, 64, 0, 0, 0, 192, 0, 0, 0, 64,
  0, 0, 0, 192, 0, 0, 0, 64, 0, 0, 0, 192, 0, 0, 0, 64, 0, 0, 0, 192, 0, 0, 0, 64, 0, 0, 0, 192, 0, 0, 0, 64,
  0, 0, 0, 192, 0, 0, 0, 64, 0, 0, 0, 192]

end Verif.Wavetable.Sine
