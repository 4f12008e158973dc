{
 "C04": {"note": "Round trip in the format of the standard, exactness of what is delivered, refusal of truncated fields, and the proof that values over 65535 bytes are lost (length prefix modulo 65536)."}
}
