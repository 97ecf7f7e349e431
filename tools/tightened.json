{
 "IStream.extract 'if is.fail then (x, is) else' -> ''": [
  "C104_failed",
  "C104_vector",
  "C104_matrix"
 ],
 "print 'putW os f.bottom' -> 'putW os f.top'": [
  "C88_frustum"
 ],
 "isNaN '0x7f800000 < a.mag' -> '0x7f800000 ≤ a.mag'": [
  "C135_float_compare (new)",
  "C135_float_order (new)"
 ],
 "free '(.error .ub, s)' -> '(.ok (), s)'": [
  "C103_release_once (new)"
 ],
 "Mat.quantizeToFp 'Fp.ofReal (1 / 2))\\n      q.rawSet i (clampLong tt.min k tt.max)\\n    else' -> 'Fp.ofReal 1)\\n      q.rawSet i (clampLong tt.min k tt.max)\\n    else'": [
  "C137_signed_codes (new)",
  "C137_signed_round_trip (new)"
 ]
}