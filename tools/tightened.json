{
 "Model/Header.lean: def limitMin|'| int16 => -32768' -> '| int16 => -32767'": [
  "C31_int_types",
  "C31_enum_types"
 ],
 "Model/Header.lean: def limitMax|'| nnint32 => 2147483647' -> '| nnint32 => 4294967295'": [
  "C31_int_types",
  "C31_enum_types"
 ],
 "Model/Samples.lean: def dataSampleFormatToSegYType|'if dsf = 2 then .ok (.int .int32)' -> 'if dsf = 2 then .ok .float32'": [
  "C42_format_codes",
  "C71_sample_format"
 ],
 "Model/Samples.lean: def packFloat32|'| .ibm x => .ok x.toFloat' -> '| .ibm _ => .error .structError'": [
  "C42_float32_converts",
  "C42_float32_decodes"
 ],
 "Model/Cache.lean: def Reader.dump|'| none => .error .typeError' -> '| none => .error .valueError'": [
  "C52_anonymous"
 ],
 "Model/ReelSizes.lean: def samplesPerTrace|'\"num_samples\"' -> '\"original_num_samples\"'": [
  "C92_equal_lengths"
 ],
 "Model/IbmObject.lean: def reduceEx|'protocol < 2' -> 'protocol < 1'": [
  "C100_dumped_fails"
 ],
 "Model/Cache.lean: def Event.step|\"if q' = p then none else w.files q'\" -> \"w.files q'\"": [
  "C52_data_files"
 ]
}