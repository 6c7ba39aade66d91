tools/Audit.lean
__pycache__/
